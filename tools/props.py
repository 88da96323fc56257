import json
P=[]
def p(title,statement,quantifier,why,anchors):
    P.append(dict(id="C%02d"%(len(P)+1),title=title,statement=statement,quantifier=quantifier,why_tests_cant=why,anchors=anchors))
p("Cross-reference table points at every object",
 "In the file produced by WriteTo/GetBytesPdf/WritePdf, the number after `startxref` is the byte offset of the `xref` keyword, the table that starts there has one 20-byte entry per object plus the free entry, and the k-th entry is the byte offset at which `k 0 obj`, that object's own body and `endobj` are found.",
 "every list of object bodies (any bytes, any count, any size with the file shorter than 10^10 bytes), with or without encryption and info dictionary",
 "Offsets depend on the lengths of every preceding object; digit-count boundaries and the padding of the entry width only show up at particular sizes.",
 ["gopdf.go: compilePdf, xref, formatXrefline, GetBytesPdfReturnErr, countingWriter"])
p("Trailer is consistent with the body",
 "The file begins with the version line and a comment line of four bytes that are not ASCII. The trailer's /Size is the number of objects plus one, /Root is the catalog object, and /Encrypt is present exactly when protection was requested and then names the encryption dictionary that is really in the file.",
 "every document built by any sequence of API calls, protected or not",
 "It relates the trailer to the object list after an arbitrary history of calls.",
 ["gopdf.go: xref, prepare, compilePdf"])
p("Object numbers are stable",
 "An object id handed out (by GetNextObjectID, a page, font, image, colour space, outline or annotation) denotes the same object for the rest of the document's life: no later call renumbers, removes or replaces the kind of an object already added, and the ids are 1..n without gaps.",
 "every sequence of API calls of any length",
 "A history property: it has to hold after every continuation of every history.",
 ["gopdf.go: addObj, GetNextObjectID, getContent, AddPageWithOption, setSubsetFontObject, ImageByHolder, AddOutline"])
p("No dangling references",
 "Starting from the trailer, every indirect reference written in the document's structure (catalog, page tree, pages, resources, fonts, images, graphics states, colour spaces, annotations, bookmarks) names an object that exists in the file and is of the kind that position requires; except /Parent of a bookmark, which names the page tree. Required of the program: anchors and bookmarks are set when there is a page, and no palette image is used as a mask before it is drawn.",
 "every sequence of API calls followed by a compile",
 "Any interleaving of pages, fonts, images, transparency, links and outlines can shift indices; a test fixes one interleaving.",
 ["gopdf.go: Start, prepare, addObj", "pages_obj.go", "page_obj.go", "procset_obj.go", "cid_font_obj.go", "subset_font_obj.go", "image_obj.go", "ext_g_state_obj.go", "smask_obj.go"])
p("Page tree lists exactly the pages added, in order",
 "After the first compile, /Kids lists the pages in the order of the AddPage calls, each exactly once, and /Count equals the number of AddPage calls and GetNumberOfPages.",
 "every sequence of API calls followed by one compile",
 "Must hold for every interleaving of page creation with all object-creating calls.",
 ["gopdf.go: AddPageWithOption, prepare, GetNumberOfPages", "pages_obj.go"])
p("Effect of compiling, and of compiling again",
 "Compiling (WriteTo, GetBytesPdf, WritePdf, Read) changes nothing in the document but the catalog, the page tree and the pages' /Contents, and adds one encryption dictionary at the end if the document is protected; every compile appends all pages to /Kids once more and raises /Count by their number. So the first compile writes the page tree correctly, and no later one does: compiling is not repeatable, for any document with a page.",
 "every document state and every number of compiles",
 "Needs comparison of two executions from every reachable state.",
 ["gopdf.go: prepare, compilePdf, GetBytesPdfReturnErr, Read, Close, WriteTo"])
p("Content goes to the page it was drawn on",
 "Everything drawn between two AddPage calls is in the content stream of the page added last before it, in drawing order, and in no other page's /Contents.",
 "every interleaving of drawing, page and resource calls (SetPage not used)",
 "Depends on the position of content objects among all other objects.",
 ["gopdf.go: getContent, AddPageWithOption, prepare", "content_obj.go", "page_obj.go"])
p("SetPage selects the page with the given number",
 "If every page has been drawn on and nothing was drawn or set before the first AddPage: SetPage(k) succeeds exactly for 1<=k<=GetNumberOfPages, and then what is drawn next goes to the end of the k-th page added and to no other page.",
 "every document state and every k",
 "The set of pages that own a content stream depends on the whole history.",
 ["gopdf.go: SetPage, getContent"])
p("Reading in chunks yields the whole file once",
 "Reading the document through Read with any sequence of buffer sizes yields, concatenated, exactly the compiled file, followed by EOF and nothing more. After Close it is compiled and read from the beginning again.",
 "every document and every sequence of (non-empty) buffer sizes",
 "Quantifies over all chunkings of all files.",
 ["gopdf.go: Read, Close"])
p("Byte counts of a failing destination",
 "WriteTo returns the number of bytes the destination accepted, and these are exactly the first bytes of the complete file, wherever the destination fails; but it reports no error for any failure of the destination (so only the count tells).",
 "every document and every failure point of the destination writer",
 "The failure can occur at any byte.",
 ["gopdf.go: WriteTo, compilePdf, countingWriter"])
p("Splitting text loses nothing",
 "SplitText returns lines whose concatenation is the text without its newlines, in order; breaks at newlines are always honoured, and no line is wider than requested unless it is a single character.",
 "every text, every font measure and every width that fits each single character",
 "All texts and all widths; boundary interplay between newline and width breaks.",
 ["gopdf.go: SplitText, SplitTextWithOption, performStrictLineBreak"])
p("Splitting text terminates",
 "SplitText/SplitTextWithOption without a separator return exactly if every character of the text fits on a line of its own, and loop forever otherwise; with a separator they return if any two characters of the text fit on a line together with the separator.",
 "every text, width and break option",
 "Non-termination on a rare combination is invisible to a finite test set.",
 ["gopdf.go: SplitTextWithOption, performStrictLineBreak, performIndicatorSensitiveLineBreak"])
p("Indicator-sensitive and hyphenating breaks keep the words",
 "With a break indicator, SplitTextWithOption removes only indicator characters and newlines, and with a separator it only inserts separators: deleting those from the concatenated lines gives the text with the same characters deleted; without a separator the call never panics.",
 "every text, width, indicator and separator",
 "Relates three kinds of break decisions over arbitrary texts.",
 ["gopdf.go: SplitTextWithOption, performIndicatorSensitiveLineBreak, breakIndicatorIndex, performStrictLineBreak"])
p("Outline items form one well-formed list",
 "After any sequence of AddOutline calls the bookmark list is a doubly linked list containing every bookmark once in call order, with its title and page: /First and /Last are the ends, /Next and /Prev of neighbours agree and /Count is the number of bookmarks. (/Parent of each names the page tree instead of the outline root, in every document.)",
 "every sequence of AddOutline calls interleaved with other object-creating calls",
 "Structural invariant over all histories.",
 ["outlines_obj.go: AddOutline, write", "gopdf.go: AddOutline"])
p("Nested outlines are linked consistently",
 "Arranging bookmarks into a tree with OutlineNodes.Parse makes every list of children doubly linked: each child's /Next and /Prev are its neighbours, its /Parent is its parent, whose /First and /Last are the ends. On the top level /Next is right for every node, and /Prev exactly if each node was added directly after the node before it. No other bookmark is touched.",
 "every forest of outline nodes",
 "All tree shapes.",
 ["outlines_obj.go: OutlineNodes.Parse, OutlineNode.Parse"])
p("String escaping round-trips",
 "The escaped form written for encryption strings and link URIs, read back as a PDF literal string, is the original byte string, whatever bytes it contains.",
 "every byte string",
 "Escaping is sequential replacement; arbitrary mixtures of backslashes and parentheses matter.",
 ["encryption_obj.go: escape", "annot_obj.go: write"])
p("Document information text round-trips",
 "Title, Author, Subject, Creator and Producer given to SetInfo are recovered by decoding the UTF-16BE strings in the Info dictionary, for all text of the Basic Multilingual Plane; the dictionary has exactly the non-empty fields, each under its key.",
 "every Unicode string",
 "All code points, including those beyond U+FFFF.",
 ["gopdf.go: writeInfo, encodeUtf8"])
p("RC4 stream encryption is invertible and length-preserving",
 "Every stream written under protection, except that of a transparency group (image with a mask), has the declared /Length and decrypting it with the standard's per-object key gives the unprotected stream; for an unprotected document the data are written as they are.",
 "every key, object number and stream content",
 "All byte strings and keys.",
 ["pdf_protection.go: rc4Cip, Objectkey", "content_obj.go: write", "image_obj.go: write"])
p("The user password opens the document",
 "A standard (Revision 2, 40-bit) security handler given the user password and the /O, /U, /P written in the file accepts it and derives the key that encrypted the streams; the owner password yields the user password.",
 "every user and owner password and permission set",
 "All passwords of all lengths, truncated and padded.",
 ["pdf_protection.go: SetProtection, setProtection, createOValue, createUValue, getPValue, randomPass"])
p("Permission bits are encoded as requested",
 "For every set of the exported permissions (print, modify, copy, annotate) the /P value has exactly the requested bits among positions 3-6, positions 1-2 clear and 7-32 set, as 32-bit two's complement; for any other mask each position above 8 is the complement of the requested bit.",
 "every permission mask",
 "All masks including out of range ones.",
 ["pdf_protection.go: setProtection, getPValue"])
p("Unit conversion is exact and invertible",
 "Converting a length to points and back gives the length for every unit and every custom conversion factor, is additive and monotone, and the custom factor takes precedence, in all calls that convert a length or a Rect with the document's settings (a Rect given to a PageOption or converted by its own unit is converted without the custom factor). Margins and the cursor are read back as they were set, and a new page starts at the margins.",
 "every length, unit and non-zero factor",
 "All reals; model over exact rationals.",
 ["config.go: unitsToPoints, pointsToUnits", "rect.go", "box.go", "gopdf.go: UnitsToPoints, PointsToUnits, SetX, GetX, SetMargins, Margins"])
p("Automatic page break honours the margin",
 "In a document in points, SetNewY, SetNewXY and SetNewYIfNoOffset start a new page exactly when the requested height does not fit above the bottom margin, and otherwise only move the cursor; in any unit they start at most one page, the decision is monotone in the height, and AddPage puts the cursor at the left and top margin.",
 "every cursor position, height, margin and unit",
 "Arithmetic condition in every unit.",
 ["gopdf.go: SetNewY, SetNewYIfNoOffset, SetNewXY"])
p("Same font lookup result for the life of the document",
 "SetFont selects the font registered first under that family and style (underline is not part of the lookup), and if none was registered it fails and leaves the current font unchanged; the font name used in content streams denotes exactly the font selected, if no font was registered with the underline style.",
 "every sequence of font registrations and selections",
 "History dependent.",
 ["gopdf.go: SetFontWithStyle, setSubsetFontObject, SetFont", "procset_obj.go", "font_option.go"])
p("Each character maps to one glyph for the whole document",
 "Once text containing a character was added to a font, the character keeps its glyph index: later text never changes it, no key is duplicated, the glyph is the font's own, and every character drawn is in the map (a substitute callback being assumed to return Unicode scalar values).",
 "every sequence of texts",
 "History property over all texts.",
 ["subset_font_obj.go: AddChars", "map_of_character_To_glyph_index.go"])
p("Extracted text matches the drawn text",
 "For text drawn with a subset font whose used characters are in the Basic Multilingual Plane the ToUnicode CMap maps every glyph code in the content stream back to a character of the text that has this glyph, and to that character itself if no other used character shares the glyph; so extracting gives the text drawn.",
 "every set of used characters and every font cmap",
 "All maps including non-injective ones.",
 ["unicode_map.go: write", "map_of_character_To_glyph_index.go: runeByIndex", "cache_content_text.go: write"])
p("cmap lookup agrees with the font's table",
 "CharCodeToGlyphIndex gives the glyph the font file's own cmap table assigns: the segment that contains the code in format 4, the group that contains it in format 12, and a not-found error otherwise; for every file whose format 4 subtable is well formed (a final 0xFFFF segment, even range offsets, glyph array entries inside the subtable) it never indexes out of range. The characters listed for a font (Chars) are exactly those the format 4 subtable gives a non-zero glyph, each with that glyph.",
 "every well-formed cmap and every code point",
 "All tables and codes.",
 ["subset_font_obj.go: charCodeToGlyphIndexFormat4, charCodeToGlyphIndexFormat12, CharCodeToGlyphIndex"])
p("Embedded subset contains every drawn glyph",
 "In the embedded font file each drawn glyph's loca range selects exactly that glyph's outline data from the original font and all other glyphs are empty; the loca table is monotone and ends at the length of glyf. For a well-formed and complete font file (tables and component records inside the file, components among its glyphs) making the subset never fails.",
 "every font and every set of drawn glyphs",
 "All subsets of all fonts.",
 ["pdf_dictionary_obj.go: makeGlyfAndLocaTable, makeFont, completeGlyphClosure"])
p("Composite glyph components are embedded",
 "Every glyph reachable through composite references from a drawn glyph is embedded with its original outline, if no component of a drawn glyph is itself composite.",
 "every composite graph of every font",
 "Arbitrary nesting depth.",
 ["pdf_dictionary_obj.go: completeGlyphClosure, getOffset"])
p("Embedded font table directory is consistent",
 "Each table record's offset and length select exactly the table's data in the embedded font file, tables do not overlap, offsets are 4-byte aligned and the checksum is the sum of the big-endian words.",
 "every list of tables of any lengths",
 "All table lengths modulo 4.",
 ["pdf_dictionary_obj.go: makeFont, CheckSum", "buff.go"])
p("Big-endian number encoding round-trips",
 "Numbers written to the embedded font are read back unchanged by the font parser.",
 "every 16 and 32-bit value, signed and unsigned",
 "Whole integer ranges.",
 ["buff_write.go", "strhelper.go", "fontmaker/core/ttfparser.go: ReadUShort, ReadShort, ReadULong"])
p("PNG alpha separation is lossless",
 "For 8-bit grey+alpha and RGBA PNGs without empty chunks the colour stream and soft mask embedded decode to exactly the colour and alpha samples of every pixel of the original image.",
 "every image size, every pixel data and every PNG filter choice",
 "All images and filter combinations.",
 ["image_obj_parse.go: parsePng"])
p("PNG chunk walk collects all image data",
 "The data embedded for a grey, RGB or indexed PNG without empty chunks are the concatenation of all its IDAT chunks, whatever other chunks are present, and its size, depth and palette are the file's. Files without signature or IHDR chunk, with more than 8 bits per sample, another colour type, compression or filter method, or interlaced, are refused.",
 "every well-formed sequence of PNG chunks",
 "All chunk layouts.",
 ["image_obj_parse.go: parsePng, readBytes, compareBytes"])
p("Drawing operators are balanced",
 "The content stream of a page is accepted by a reader that allows each operator only where the standard does, with every q matched by Q and every text object and path closed, exactly if on this page what the user saves (SaveGraphicsState, Rotate) is restored (RestoreGraphicsState, RotateReset) and nothing else; polygons being required to have points. Shapes, images and templates leave the graphics state as it was.",
 "every sequence of drawing calls",
 "All sequences of all drawing operations and options.",
 ["content_obj.go", "cache_content_*.go", "cache_contnent_*.go"])
p("Consecutive text is merged without changing what is drawn",
 "Joining adjacent text into one text object keeps the characters in order, and every character is drawn with the font, size and spacing that were current when it was drawn, and with the text colour that was current, if SetGrayFill is not used; if moreover texts joined agree in transparency, joining changes nothing of what is painted.",
 "every sequence of style changes and text calls",
 "History of style changes.",
 ["list_cache_content.go: appendContentText", "cache_content_text.go: isSame"])
p("Same image is embedded once",
 "Drawing images with the same id embeds one image object however often and on however many pages it is drawn, images with different ids never share an object, and every drawing names the object with its id; for programs that draw images only when there is a page.",
 "every sequence of image calls",
 "History property.",
 ["gopdf.go: imageByHolder, createImageXObject, maskHolder", "procset_obj.go"])
p("Graphics states are shared exactly when equal",
 "SetTransparency with equal settings (alpha up to three decimals, blend mode) reuses one graphics state and different settings never share one; every graphics state used in a content stream is in the page resources. If no setting is almost opaque (alpha below 1 but rounding to 1.000): a shape, cell or image is drawn with its own setting if it has one, otherwise with that of the last SetTransparency unless ClearTransparency or an opaque setting came after it; an image given a mask is drawn through one soft mask showing exactly the mask image.",
 "every sequence of transparency settings",
 "History property.",
 ["gopdf.go: SetTransparency, saveTransparency", "transparency.go", "ext_g_state_obj.go"])
p("Spot colour names identify one colour space",
 "AddColorSpaceRGB/CMYK succeeds exactly if the name is new, and SetColorSpace selects the colour space registered under the name; an unknown name is an error and draws nothing. (A rejected registration leaves an unused object in the file.)",
 "every sequence of colour space calls",
 "History property.",
 ["gopdf.go: AddColorSpaceRGB, AddColorSpaceCMYK, SetColorSpace", "color_space_obj.go"])
p("Links belong to the current page",
 "AddExternalLink/AddInternalLink attach exactly one annotation to the page last added; an internal link's destination is the page and height at which SetAnchor was called with that name, the last one winning, whether before or after the link; a link to a name that is never set has no destination, and nothing is reported.",
 "every interleaving of link, anchor and page calls",
 "Forward and backward references, all orders.",
 ["gopdf.go: addLink, AddExternalLink, AddInternalLink, SetAnchor", "annot_obj.go"])
p("Measured width equals drawn advance",
 "The cursor advances by exactly MeasureTextWidth of the whole text over a line written by any consecutive Text and Cell calls after SetXY, in every unit, with kerning and character spacing; the text drawn has exactly this width without character spacing, and with it is wider by less than a thousandth of the font size plus one font unit per glyph; the width of a concatenation is the sum of the widths plus the kerning where they meet.",
 "every text and font metrics",
 "All texts.",
 ["gopdf.go: MeasureTextWidth, Text, Cell", "cache_content_text.go: createContent"])
p("Alignment places text inside its rectangle",
 "CellWithOption with a rectangle places the text at the cursor flush left, centred or flush right, at the top, middle or bottom of the rectangle; text not wider than the rectangle stays inside. Justify (without character spacing) widens every space between words by the same amount and moves nothing else, and the text then fills the rectangle up to half a thousandth of the font size per space; text that is too wide or has no space is not changed.",
 "every rectangle, text width and number of spaces",
 "All sizes.",
 ["cache_content_text.go: calX, calY, justifyAdjustment, nonSpaceBounds, interiorSpaceCount"])
p("MultiCell draws consecutive lines",
 "MultiCell draws consecutive lines of the text, one line height below each other and at the same x, breaking only where the next character does not fit; text is left out (at the end) only if a further line would not fit in the height, and every line has room in the height except possibly the last one. IsFitMultiCell answers exactly whether MultiCell would draw the whole text within the height, and IsFitMultiCellWithNewline the same for the parts between newlines. MultiCellWithOption (Float without Bottom) draws exactly the lines SplitTextWithOption returns, one below the other, aligned as asked (the last line of justified text left).",
 "every text, width and height",
 "All texts and rectangles.",
 ["gopdf.go: MultiCell, IsFitMultiCell, IsFitMultiCellWithNewline, MultiCellWithOption"])
p("Table cells tile the table",
 "DrawTable draws header, every row in order and blank rows up to the maximum, each cell adjacent to its neighbours, with its background, border and text: the cells of a row tile the table's width and rows tile its height; then the border around the whole area, if there are no more rows than the maximum, and around the header. A row with more cells than columns makes the call panic.",
 "every column list, row list and geometry",
 "All tables.",
 ["table.go: DrawTable, drawCell, drawTableBorder"])
p("Arabic shaping keeps the letters",
 "For a text that does not begin with a mark, ToArabic's output is the input's letters in reverse order, each replaced by one of its own contextual forms (lam-alef and the word Allah by their ligatures), with exactly its own marks beside it; and the form is the one its neighbours ask for after Unicode's joining types, except after jeh or a raw lam-alef, before hamza, and for teh marbuta inside a word, in texts without the word Allah. (Letters, presentation forms, marks and the ligatures of vowels with shadda after the Unicode data files.)",
 "every string",
 "All strings.",
 ["arabic_helper.go: ToArabic, reverseWithTashkeel"])
p("Fonts shared through a container stay isolated",
 "Loading the same FontContainer into several documents gives each document its own used-character set: drawing in one never changes what another embeds.",
 "every interleaving of calls on several documents",
 "All interleavings.",
 ["font_container.go", "subset_font_obj.go: init"])
p("Placeholder fill is aligned within its placeholder",
 "In a document in points: FillInPlaceHoldText puts the text into the placeholder's own place, on the page and in the style it was made with, left, right or centre aligned in the reserved width (measured with the font current at the fill, which must be the placeholder's), in every placeholder registered under the name and nowhere else, and it stays there whatever is drawn later; Right and Center fills happen once, Left fills any number of times, each replacing the text.",
 "every text, width, unit and history of fills",
 "All histories and units.",
 ["gopdf.go: PlaceHolderText, FillInPlaceHoldText"])
p("Rectangle corner validation",
 "Rectangle fails exactly for corners in the wrong order and for a radius greater than the width or height; for accepted ones every point of the outline is inside the rectangle and on an edge or a corner circle, and the outline is drawn closed, with the requested painting style; if the radius is at most half the width and height it goes round once without turning back.",
 "every coordinates and radius",
 "All geometry.",
 ["gopdf.go: Rectangle"])
p("Compression level setting",
 "SetCompressLevel(l) makes the effective level l when -2<=l<=9 and the default -1 when l is smaller; a greater l changes nothing. The level is always one the compressor accepts, and a stream is compressed unless the last level accepted was 0; until a level is set it is compressed at the default level.",
 "every integer level",
 "All integers.",
 ["gopdf.go: SetCompressLevel"])
p("Figures are drawn as asked",
 "Every figure a call asks for (Line, the rectangles, Oval, Curve, Polygon, images, imported templates) is painted on the page that was current, in call order, at the coordinates given (from the upper left corner of the page, in the document's unit), with the line width, dash pattern, stroke colour, transparency, rotation and clipping in effect at the call, and also the fill colour as long as no text colour is set; apart from text with its underlines and borders nothing else is painted. Required of the program: saves and restores are paired on each page, polygons are not empty, SetPage goes only to pages of the current page's height, masked images are not both rotated and mirrored or cropped.",
 "every history of calls on every number of pages, in every unit",
 "All interleavings of state changes, pages and figures.",
 ["gopdf.go: Line, RectFromLowerLeft, RectFromUpperLeft, Oval, Curve, Polygon, ClipPolygon, Rotate, SetLineWidth, SetLineType, SetStrokeColor, SetFillColor, SetPage", "cache_content_*.go: write", "content_obj.go: AppendStream*"])
p("Rotation turns about its centre",
 "Rotate(angle,x,y) makes everything drawn until the matching RotateReset appear turned by the angle counterclockwise about the point (x,y) given from the upper left corner in the document's unit, preserving distances; RotateReset restores the state before.",
 "every history, angle, centre and unit",
 "All histories and all coordinates.",
 ["gopdf.go: Rotate, RotateReset", "cache_content_rotate.go: write, computeRotateTransformationMatrix"])
p("Images fill the box asked for",
 "An image without a mask is painted exactly over the rectangle asked for (upper left corner, size), mirrored in it if asked for and turned about its middle by the angle; with a crop window exactly the window is visible, its upper left corner at the position given; the graphics state is left unchanged. (A masked image that is mirrored and turned is painted elsewhere.)",
 "every position, size, crop window, angle, flip and graphics state",
 "All option combinations and coordinates.",
 ["cache_content_image.go: write, openImageRotateTrMt", "content_obj.go: GetCacheContentImage"])
p("Image size",
 "An image drawn with a size has that size, converted from the document's unit; drawn without one it has the size of the first use of the same image, and at its first use its natural size: its pixels (at least two each way) at 128 to the inch, rounded down to points.",
 "every history of image and mask drawings, every unit",
 "Histories of any length.",
 ["gopdf.go: ImageByHolder, ImageByHolderWithOptions, maskHolder, imageByHolder", "image_obj.go: getRect"])
p("Borders and underlines of cells",
 "A cell drawn with a rectangle paints, besides its text, exactly one line along every side of the rectangle that the option asks for (the horizontal ones reaching half the current line width beyond the corners) and, if the font style has underline, one filled bar over the rectangle's width at the font's underline position and thickness (times the option's coefficients), measured from a baseline one ascender and half the surplus leading below the rectangle's upper edge; nothing else.",
 "every document history, rectangle, option, font and unit",
 "All histories and options.",
 ["cache_content_text.go: drawBorder, underline, write", "gopdf.go: CellWithOption"])
p("Page content bytes read back as drawn",
 "The bytes of every page's content stream, read by the lexical rules of PDF, are the operators of the page's drawing calls, in order, none missing and none added: operators, resource names, glyph codes and text adjustments exactly, numbers up to half a unit of the last decimal written (coordinates and lengths 0.005, colours, font size and spacing 0.0005, rotation 0.000005); it is complete (text objects and paths closed, saves restored), paints the same marks in the same order, and the 256 levels of red, green and blue stay distinct. Required: glyph numbers fit in two bytes and a template is not named like an image (/I3).",
 "every history of drawing calls, every page, every font and every rational coordinate",
 "All histories and all coordinates.",
 ["content_obj.go: AppendStream*", "list_cache_content.go: write", "cache_content_*.go: write", "strhelper.go"])
p("Writing the document again writes the same page contents",
 "Writing the document any number of times writes the same content stream for a page every time, provided no imported template is drawn on the page; a template moves up by the height of the page with every writing.",
 "every history of drawing calls, every page and number of writings",
 "All histories and any number of writings.",
 ["gopdf.go: WriteTo, compilePdf", "cache_content_imported_object.go: write", "content_obj.go: write"])
p("Every object of the file reads back as meant",
 "In a document written once, every object, read from the file by the lexical rules of PDF through the cross-reference table, is the dictionary (or array) its kind requires, with exactly the entries meant, no key twice, numbers rounded correctly to the digits written, and stream data of exactly the length announced; the stream decrypts to what was put in. Following references from the trailer a reader finds an object every time; resource names of a page denote the fonts, images, colour spaces and graphics states that were drawn with; following a font's references gives its own embedded program, character map and widths, following an image's its own alpha channel and palette. Required: font families and colour space names need no escapes, nothing is imported, links lead to anchors that exist.",
 "every history of calls, every page, every object, protected or not, every name, number and stream content",
 "All histories and all values; a reader may follow any path through the file.",
 ["*_obj.go: write", "gopdf.go: compilePdf, xref, writeInfo", "content_obj.go: write", "image_obj.go: write", "subset_font_obj.go: write"])
p("What was drawn can be read from the file",
 "Opening the written file with the user or the owner password (any, if it is not protected), finding trailer, catalog, page tree, pages and their content streams, decrypting and decompressing gives for every page, in the order the pages were added, exactly the bytes of the drawing calls made on it, in order. (The owner password must not pass for a user password by accident.)",
 "every history of calls compiled once without SetPage, every password pair, compressed or not",
 "All histories, all passwords and the composition of file layout, encryption, compression and page tree.",
 ["gopdf.go: compilePdf, AddPage, prepare", "content_obj.go: write", "pdf_protection.go", "encryption_obj.go: write"])
p("Creation date",
 "The creation date in the written file, read as a PDF date, has the year, month, day, hour, minute and second given to SetInfo, and denotes the same instant (to the second) when the time zone is a whole number of hours from universal time. In other zones the minutes of the zone are lost and the instant read is late by them. Years 0 to 9999. For the zero time no date is written.",
 "every document, every time of the calendar, every zone less than a day from universal time",
 "All dates and zones.",
 ["gopdf.go: infodate, writeInfo", "pdf_info_obj.go: PdfInfo"])
p("A program's file shows its pages, with their resources",
 "A viewer that opens the file written by a program - any sequence of calls adding fonts, colour spaces, pages, links, bookmarks, setting fonts, colours and transparency and drawing text, figures and images, failed calls included - finds a page for every AddPage, in order, and reads on each page the operators of the calls made while it was the current page, in order, numbers up to the rounding of C53; and every font, graphics state, image and colour space an operator names is found through the page's resources in the file and is an object of that type. Required: no font registered with the underline style (C23), SetPage not used and the document written once, the conditions of C53 and C55.",
 "every program (list of calls) that does not panic, protected or not, compressed or not, every page and operator",
 "All programs: numbers given out while drawing and objects written at the end are tied by state spread over both.",
 ["gopdf.go: AddPage, SetFont, Text, CellWithOption, Image, ImageByHolderWithOptions, SetTransparency, SetColorSpace, compilePdf", "content_obj.go", "procset_obj.go: write", "page_obj.go: write"])
p("Text can be extracted from the file",
 "A viewer that goes through the operators of a page of a program's file, follows the font resource in effect to the font object and reads every code shown through the font's /ToUnicode map gets the text of the Text and Cell calls made on that page, character by character and in order, each in a font named after the family of the last SetFont that succeeded. Required: the characters are in the font (two characters sharing a glyph read as one of them), in the Basic Multilingual Plane, and the conditions of C58.",
 "every program, every page and character, every font and map from characters to glyphs",
 "All programs and texts: the codes of a page depend on the history of the font's character map, its map on the whole program.",
 ["gopdf.go: SetFont, Text, CellWithOption", "cache_content_text.go: write", "subset_font_obj.go: AddChars", "unicode_map.go", "content_obj.go"])
p("A program's figures use what was asked for, in the file",
 "A viewer that opens a program's file paints on every page the paths and images of the calls made on it, as in C48, and each uses in the file what its call asked for: an image is the object with the data of the picture given; a path or image is painted through a graphics state with exactly the alpha and blend mode of its call (its own, or the one last set), and through none if it is opaque; a masked image is masked by the luminosity of a group that paints the mask's picture and nothing else, where the mask's options say, with the mask's transparency; a path is stroked in the separation colour space of the name selected, or in a plain colour if none is. A picture used both as a mask and as an image may be there with its alpha channel only (C35). Required: masked images are not both rotated and mirrored or cropped (C50), no coloured text (C48), no alpha that only rounds to 1 (C36), no masks in a protected document (C18), and the conditions of C58.",
 "every program, every page and figure, every picture, mask, transparency and colour space",
 "All programs: the objects are shared, cached and numbered by the history of all earlier calls.",
 ["gopdf.go: ImageByHolderWithOptions, maskHolder, createTransparencyXObjectGroup, SetTransparency, SetColorSpace, Line, Polygon, RectFromUpperLeftWithOpts", "cache_content_image.go: write", "ext_g_state_obj.go", "smask_obj.go", "transparency_xobject_group.go", "device_rgb_obj.go"])
p("Links and anchors in the file",
 "In a document whose pages all have the default height, a viewer that follows the annotations of the n-th page of the file finds the links put on that page, in order: each a link over the rectangle given to AddExternalLink or AddInternalLink, measured from the upper left corner, that opens the address given, or leads to the page on which the anchor was last set, one line above where the cursor was then (numbers rounded to the two digits written; the address is decrypted if the document is protected). Required: nothing imported, SetPage not used, written once. On a page of another height link and anchor are misplaced by the difference; a link to an anchor that is never set leads nowhere (C38).",
 "every program, every page, link and anchor, protected or not",
 "All programs: anchors may be set before or after the links to them, object numbers depend on everything else.",
 ["gopdf.go: AddExternalLink, AddInternalLink, SetAnchor, AddPageWithOption", "annot_obj.go: write, writeExternalLink, writeInternalLink", "page_obj.go: write"])
p("Bookmarks in the file",
 "In a document whose pages all have the default height, a viewer that follows the bookmarks from the catalog finds the ones added by AddOutline and AddOutlineWithPosition, in order, each with its title and leading to the page that was current when it was added, 20 points above the cursor (to the lower edge, if no position was asked for). On a page of another height the position is off by the difference. Required: nothing imported, SetPage not used, written once.",
 "every program, every number of bookmarks, every title",
 "All programs.",
 ["gopdf.go: AddOutline, AddOutlineWithPosition", "outlines_obj.go: AddOutline, AddOutlinesWithPosition, write", "catalog_obj.go: write"])
p("Page boxes in the file",
 "The n-th page of the file has, as its own or inherited from the page tree, a media box of the size given when it was added, or of the document's default size, and the trim box given with its size, unless it is empty; and what is drawn on the page is measured from the upper edge of that media box. A trim box given without a size is not written; sizes given with a page ignore the conversion factor of a custom unit (C21).",
 "every program, every page, size and trim box",
 "All programs, sizes and units.",
 ["gopdf.go: Start, AddPageWithOption", "page_obj.go: write, setOption", "page_option.go", "pages_obj.go: write", "box.go"])
p("Text is drawn in the caller's fonts",
 "A viewer that opens a program's file meets on every page exactly one code for each character the caller wrote on that page, in order, and what the code draws is taken from the font file passed to AddTTFFont (the one the last successful SetFont selected): in the embedded font program the code has the outline - components included - of the glyph the file's cmap table gives the character, and in the font's list of widths it has the width the file's hmtx table gives that glyph. A character the font does not have is drawn as the substitute (OnGlyphNotFoundSubstitute, a space by default), and as glyph 0 if the font does not have that either. Required: well-formed font files (C26, C27), a substitute that is its own substitute (otherwise what is drawn depends on earlier text), no font registered with the underline style (C23), and the conditions of C58.",
 "every program, every font file given as bytes, every text, page and character",
 "All programs, fonts and texts: the glyph numbers, the subset and the widths written at the end depend on every character drawn or measured before.",
 ["gopdf.go: AddTTFFontDataWithOption, SetFont, Text, Cell, CellWithOption, MeasureTextWidth", "fontmaker/core/ttfparser.go: ParseFontData", "subset_font_obj.go: AddChars, CharCodeToGlyphIndex, GlyphIndexToPdfWidth", "pdf_dictionary_obj.go", "cid_font_obj.go: write", "cache_content_text.go: write"])
p("Measures come from the caller's fonts",
 "MeasureTextWidth returns, in the unit of the document, the size times the sum over the characters of the text of the width the font file's hmtx table gives the glyph drawn for the character (thousandths of an em, rounded down) plus, if kerning was asked for, the value of the file's kern table (with the override) for the pair with the character before, plus the character spacing (rounded down to thousandths of the size). MeasureCellHeightByText returns the typographical ascent less the typographical descent of the font file, for the size, whatever the text. The font is the one selected by the last SetFont that succeeded, as it was given to AddTTFFont. Required: well-formed font files, at most one kern subtable; of several the library keeps only the last.",
 "every program, every font file, every text, size, spacing and unit",
 "All programs, fonts and texts: the glyph numbers and the current setting depend on the history.",
 ["gopdf.go: MeasureTextWidth, MeasureCellHeightByText, SetFont, SetCharSpacing", "cache_content_text.go: createContent", "subset_font_obj.go: KernValueByLeft, GlyphIndexToPdfWidth", "fontmaker/core/ttfparser.go: ParseKern, ParseHmtx, ParseHhea"])
p("Font descriptors describe the caller's fonts",
 "Whatever font a code on a page of a program's file is shown in, the font descriptor a viewer finds for it has the bounding box, the italic angle, ascent, descent, height of capitals and of small letters that the tables of the font file passed to AddTTFFont give, in thousandths of an em rounded to the nearest (ascent and descent as for Windows, unless the typographical ones are 0). Required: as for C64.",
 "every program, every font file, page and character",
 "All programs and fonts: a descriptor is found by following references numbered by the history.",
 ["subfont_descriptor_obj.go: write, DesignUnitsToPdf", "fontmaker/core/ttfparser.go: ParseHead, ParseHhea, ParseOS2, ParsePost", "cid_font_obj.go: write"])
p("Kerning in the file",
 "The text of a page of a program's file is shown in arrays of codes and numbers, each for consecutive characters the caller wrote in one font: there is a number before a character exactly if the caller asked for kerning and the kern table of the font file (with the override) has for the pair a value that is not 0 in thousandths of an em, and the number moves the pen by that value. So the pen of a viewer moves by exactly what MeasureTextWidth returns for the text of an array (without character spacing). Required: no justified text, at most one kern subtable, and the conditions of C64.",
 "every program, every font file, page and text",
 "All programs, fonts and texts.",
 ["cache_content_text.go: write", "subset_font_obj.go: KernValueByLeft", "gopdf.go: Text, Cell, CellWithOption"])
p("Pictures in the file",
 "If a picture given to Image, ImageFrom, ImageByHolder or ImageByHolderWithOptions is a PNG file of at most 8 bits per sample (grey, RGB or palette, with or without an alpha channel or one transparent colour, not interlaced), the image a viewer finds for it when it paints the page has, pixel by pixel, the size, the colours and the opacity the PNG file has: opacity through the soft mask or the colour key. A picture only used as a mask is there as its opacity in shades of grey. Exceptions: the opacity of palette entries other than one fully transparent entry is lost, a picture drawn through a mask loses its own opacity, an opaque picture used as a mask has no data, and of a picture both drawn and used as a mask only the first use is right.",
 "every program, every PNG file of the kinds named, every page, picture and pixel, protected or not",
 "All files and programs: the image object is shared, cached and numbered by the history, and its stream is filtered, compressed and perhaps encrypted.",
 ["image_obj_parse.go: parsePng, parseImg, writeImgProps, writeMaskImgProps", "image_obj.go: write, createSMask, createDeviceRGB", "smask_obj.go: write", "device_rgb_obj.go: write", "gopdf.go: ImageByHolderWithOptions, imageByHolder, maskHolder"])
p("Wrapped text, tables, headers and footers in the file",
 "A viewer that opens the file of a program with MultiCell, MultiCellWithOption, DrawTable and header and footer functions meets on every page one code for each character written there and no other, in order, drawn as the glyph the caller's font gives the character: of MultiCell a prefix of the text - all of it if IsFitMultiCell answered true for the same rectangle and text just before; of MultiCellWithOption the whole text without newlines (with default options nothing else is missing or added; otherwise the characters lines are broken at are missing and the separator is added where words are broken); of DrawTable the texts of the header, of every row and of the blank rows, each in the font its style names or the one in use; and on every new page, before anything else, what the header and the footer function given last write when called with the number of the page. Required: the functions add no pages, and the conditions of C64.",
 "every program, every text, width, break option, table, header and footer function, every page",
 "All programs, texts and fonts: where lines are broken depends on measuring, and measuring changes the fonts.",
 ["gopdf.go: MultiCell, IsFitMultiCell, MultiCellWithOption, SplitTextWithOption, AddPageWithOption, AddHeader, AddFooter, resetCurrXY", "table.go: DrawTable, drawCell"])
p("The look of text in the file",
 "On every page of a program's file a viewer meets one code for each character the caller wrote there and no other, in order, each drawn as the glyph the caller's font gives it, in the size of the last SetFont or SetFontSize, with the character spacing of the last SetCharSpacing (both to half a thousandth of a point), and filled in the colour of the last SetTextColor or SetTextColorCMYK before it, if there was one, to half a thousandth per component. Required: SetGrayFill is not called (it colours text that is joined to earlier text differently, see C34), and the conditions of C64.",
 "every program, every page and character",
 "All programs: text written by several calls is joined, and the state of one item must not leak into the next.",
 ["cache_content_text.go: write, isSame", "gopdf.go: SetFont, SetFontSize, SetCharSpacing, SetTextColor, SetTextColorCMYK, Text, Cell, CellWithOption", "content_obj.go: AppendStreamText, AppendStreamSubsetFont"])
p("The place of text in the file",
 "If SetXY(x, y) is followed by Text, Cell or CellWithOption with a text that is not empty, a viewer of the page in the program's file finds the first character of the text at the beginning of a text object, drawn as the glyph of the caller's font, at the place asked for, to half a thousandth of a point: Text starts at (x, page height - y), on the baseline; Cell, and CellWithOption without a rectangle, one typographical ascent (of the font file, for the current size) lower; CellWithOption with a rectangle in the rectangle with its top left corner at (x, y), flush right, centred or flush left with the width the font file gives the text, and with its line (typographical ascent to descent) at the bottom, in the middle or at the top, as the option says. Required: as for C70, and at most one kern subtable if kerning is used.",
 "every program, every place, text, rectangle and alignment, every font file",
 "All programs: the place depends on the unit, the height of the page, the font file and on whether the text is joined to earlier text.",
 ["cache_content_text.go: write, calX, calY, isSame, createContent", "gopdf.go: SetXY, Text, Cell, CellWithOption", "list_cache_content.go: appendContentText", "rect.go: UnitsToPoints"])
p("JPEG and GIF files in the file",
 "If a picture given to Image, ImageByHolder or ImageByHolderWithOptions is a JPEG file in RGB (YCbCr), grey or CMYK, the image a viewer finds for it when it paints the page is the JPEG file, byte by byte, under the filter DCTDecode, with the width, height and colour space the header of the file gives, 8 bits for each component, no mask, and for CMYK the decode array that inverts every component. For a GIF file the image has, pixel by pixel, the size, colours and opacity of the PNG file Go's image packages convert it to (as C68). Exceptions: a JPEG file only used as a mask has no data, and of a picture both drawn and used as a mask only the first use is right.",
 "every program, every JPEG and GIF file, every page and picture, protected or not",
 "All files and programs: the image object is shared, cached and numbered by the history, and its stream perhaps encrypted.",
 ["image_obj_parse.go: parseImg, parseImgJpg, writeBaseImgProps, writeImgProps", "image_obj.go: write", "gopdf.go: ImageByHolderWithOptions, imageByHolder"])
p("Documents written at the same time",
 "If several documents are written at the same time (WriteTo, WritePdf, GetBytesPdf ...), each by a goroutine of its own, then however the goroutines are interleaved, each writes exactly the file it writes alone: a part written so far is a beginning of it, no two goroutines ever work on the same pooled buffer, and none has to wait for another one.",
 "every number of documents, every schedule, every choice of the pool (which buffer it gives, new ones, lost ones), every way the pieces of a stream are written",
 "All schedules: an interleaving in which a shared buffer does harm is found by luck only.",
 ["buffer_pool.go: GetBuffer, PutBuffer", "content_obj.go: write", "unicode_map.go: write", "pdf_dictionary_obj.go: write", "transparency_xobject_group.go: write", "gopdf.go: compilePdf, countingWriter"])
p("What the caller passes by reference",
 "Every dash slice given to SetCustomLineType, crop window and mask given to ImageByHolderWithOptions, and transparency setting given to a figure, cell or image stands in the file with the value it had when it was passed, its lengths converted to points once, provided the caller leaves alone what it has given away: it does not change a slice, crop window or setting later, and, unless the unit is points, neither passes a slice again nor a mask without assigning it anew. Crop windows, settings and everything not passed keep the values the caller gave them. Each condition is needed: a slice or mask passed twice in millimetres is converted twice (the slice for both lines), and a slice, crop window or setting changed later changes what was drawn before, a setting even for other drawings with an equal setting.",
 "every program of assignments and calls, every variable, value and unit",
 "All histories: the harm is done to a drawing by a later call or assignment.",
 ["gopdf.go: SetCustomLineType, ImageByHolderWithOptions, saveTransparency, getCachedTransparency, SetTransparency", "content_obj.go: AppendStreamSetCustomLineType, GetCacheContentImage", "ext_g_state_obj.go: GetCachedExtGState, write", "transparency.go"])
p("Which characters the current font has",
 "IsCurrFontContainGlyph always answers and changes nothing: without a chosen font the answer is no; otherwise it is yes exactly if the cmap table of the font file the caller chose gives the character a glyph other than glyph 0. If it is yes, the character is drawn with a glyph the file gives it, never with the substitute; if it is no, it is drawn as the glyph for missing characters or as the substitute.",
 "every program, every font file, every character",
 "All font files and programs: the answer depends on the tables of the file and on which font the history has chosen.",
 ["gopdf.go: IsCurrFontContainGlyph, SetFont", "subset_font_obj.go: CharCodeToGlyphIndex, AddChars"])
p("Importing pages",
 "Every object the importer gives for a page (ImportPage, ImportPageStream, ImportPagesFromSource) is in the file under the number the importer gave it, byte by byte, whatever is added before and after it; the name it gave to the page's form means that form on every page. ImportPagesFromSource appends one page for each page of the source, in order, which shows that page and nothing else, with its upper left corner in the upper left corner of the page, and in its own size if the unit is points; if the size of a page is not known it stops with an error after the pages before it. Required of the importer: told where to go on it numbers objects without gaps, and it places forms in the rectangle given. Exceptions: with another unit the page is enlarged by the unit's factor; in a protected document imported streams are not encrypted.",
 "every program with imports at any point, every source and number of pages, every answer of the importer that meets the requirements",
 "All histories: numbers are right only if the document and the importer count alike at every import.",
 ["gopdf.go: ImportPage, ImportPageStream, ImportPagesFromSource, UseImportedTemplate, ImportObjects, ImportTemplates, GetNextObjectID", "imported_obj.go", "procset_obj.go: write", "cache_content_imported_object.go", "content_obj.go: AppendStreamImportedTemplate"])
p("Which font files are taken",
 "AddTTFFont (and its variants) takes a font file exactly if it is complete: it has the signature of a TrueType file, a complete directory without a tag twice, head with its magic number, hhea, maxp, an advance width in hmtx for every glyph, a complete cmap subtable of format 4 for platform 3, encoding 1 (and, if there is one for encoding 10, a complete one of format 12), a PostScript name, OS/2, post, loca, and a complete kern table if kerning is asked for. If it takes the file, the document has the font, whatever the document was; if not, it returns an error and nothing in the document changes. Exception: if hhea announces no advance width at all and the font has glyphs, the call panics.",
 "every byte string given as a font file, every state of the document",
 "All files: a missing bounds check is found only with the file that lacks just that.",
 ["fontmaker/core/ttfparser.go: ParseFontData, ParseHead, ParseHhea, ParseMaxp, ParseHmtx, ParseCmap, ParseName, ParseOS2, ParsePost, ParseLoca, Seek, Read", "fontmaker/core/ttfparser_cmap_other_format.go: ParseCmapFormat12", "fontmaker/core/ttfparser_kern.go: Parsekern", "gopdf.go: AddTTFFontWithOption, AddTTFFontDataWithOption, setSubsetFontObject"])
p("Using the object again",
 "If Start is called again on an object, whatever was done with it before - pages, fonts, images, bookmarks, anchors, protection, information, compression level, files already written - then after setting the header and footer functions every further call panics exactly if it does on a new object, every measurement is the same, and every file written is the same byte for byte as that of a new object. Exceptions: the header and footer functions of the earlier document stay until others are set and are called on the new document's pages, and GetNumberOfPages is the number of AddPage calls in the whole life of the object: Start does not set it back, so it is not the number of pages of the second document, and a header that prints it counts on.",
 "every state an object can be in, every program after Start (further Starts and files written in between included)",
 "All histories: one thing left over from the document before would show only in the document after it.",
 ["gopdf.go: Start, StartWithImporter, start, init, GetNumberOfPages, AddHeader, AddFooter, AddPageWithOption, SetInfo, SetCompressLevel"])
p("Wrapped text stays in its column",
 "MultiCellWithOption and MultiCell break a text by the widths that the file of the current font gives its glyphs, at the current size and character spacing, whatever was called before: each line is put in one cell as wide as the rectangle; a line ends only at a newline, at the end of the text, at the break character, or because the next character would make it wider than the rectangle; without kerning and without a separator no line of MultiCellWithOption, and none of MultiCell of more than one character, is wider than the rectangle; without kerning and character spacing a line with its separator is not wider either; every line of a table is as wide as its column without the padding allows, in the font of its own cell. Exception: if the caller asked for kerning, the kerning before the last character is not counted, so a line can be wider.",
 "every program before the call, every font file, size, spacing, text, rectangle and break option",
 "All texts and fonts: a line that is too wide shows only for the text whose widths add up to just too much.",
 ["gopdf.go: MultiCell, MultiCellWithOption, SplitTextWithOption, MeasureTextWidth, performIndicatorSensitiveLineBreak, performStrictLineBreak", "table.go: DrawTable, drawCell", "cache_content_text.go: createContent", "subset_font_obj.go: GlyphIndexToPdfWidth, KernValueByLeft"])
p("A picture is drawn from the data of its holder",
 "Whatever was done before - holders made of bytes, readers or files, drawn any number of times in any documents, as pictures or as masks, files changed, documents started again - a drawing through ImageByHolder or ImageByHolderWithOptions shows the data its holder was made from, and its mask those of the mask's holder; Image shows what the file has then, ImageFrom the image given; a document has one image for each name. A holder can be drawn any number of times in one document. Required: no name stands for two different data (no MD5 collision, no file changed after it was used). Exceptions: a holder can be read only once, so drawing it in a second document, after Start, or after a drawing that failed is an error; a file changed after its first use is drawn as it was; a picture used in two ways in one document - bare, through a mask, as a mask - is always drawn as at its first use: only its transparency, or without it.",
 "every history of holders, drawings, files and documents",
 "All histories: a stale or exhausted holder shows only after the drawings that leave it so.",
 ["image_holder.go: newImageBuff, newImageBuffByPath, newImageBuffByReader", "gopdf.go: ImageByHolder, ImageByHolderWithOptions, maskHolder, imageByHolder, Image, ImageFrom, ImageFromWithOption", "image_obj.go: SetImage, getRect, parse", "image_obj_parse.go: writeImgProps, writeMaskImgProps"])
p("What options given as strings mean",
 "A style given to SetFont is bold, italic and underlined exactly if it has the letter b, i, u - in any case, order and company - and picks the font registered first under the family with those of the first two; rectangles and polygons are filled by exactly \"F\", drawn and filled by exactly \"FD\" and \"DF\", and only drawn by any other string, curves the same up to case and surrounding spaces; SetLineType makes dashes for exactly \"dashed\" and \"dotted\" and solid lines otherwise; NewTransparency takes an alpha from 0 to 1 with one of the sixteen blend modes of PDF, named with a slash, or the empty string for Normal, keeps both, and refuses everything else. Exception: style words are taken letter by letter, so \"regular\" is underlined and \"underline\" is italic.",
 "every string, every alpha, every document",
 "All strings: a comparison that is wrong for one spelling is right for those tried.",
 ["font_option.go: getConvertedStyle", "style.go: parseStyle", "gopdf.go: SetFont, RectFromLowerLeftWithStyle, RectFromUpperLeftWithStyle, SetLineType", "cache_contnent_curve.go: write", "cache_content_polygon.go: write", "cache_content_line_type.go: write", "content_obj.go: AppendStreamCurve", "transparency.go: NewTransparency, defineBlendModeType"])
p("Which calls panic",
 "Whatever program was run before, with well-formed fonts, the next call panics exactly if it draws or measures text and no font was chosen, or if it reads or changes the page and none was added; a whole program runs without a panic exactly if every call finds the font and the page it needs. So no text, whatever its characters, no picture - decodable or not -, no option, no colour, no transparency, no link and no order of calls panics once there are a page and a font. MeasureTextWidth and MeasureCellHeightByText answer exactly if there is a font. MultiCell returns for every text and rectangle, IsFitMultiCell also without a page; MultiCellWithOption without a separator returns if every character of the text is no wider than the rectangle. When the file is written the subset of every font can be made, if the font files are complete. A font file may panic when it is added (see C77), a separator when a text is split (C13).",
 "every program before the call, every font file, every call, text and rectangle",
 "All histories: a nil page or font, a missing glyph or an index out of range shows only after the calls that lead there.",
 ["gopdf.go: Text, Cell, CellWithOption, MeasureTextWidth, MeasureCellHeightByText, MultiCell, IsFitMultiCell, MultiCellWithOption, AddExternalLink, AddInternalLink, Line, Polygon, Image, ImageByHolderWithOptions, Rotate", "content_obj.go: AppendStreamText, AppendStreamSubsetFont, AppendStreamImage", "cache_content_text.go: createContent, write", "subset_font_obj.go: AddChars, CharIndex, GlyphIndexToPdfWidth, KernValueByLeft"])
p("Tables are drawn as they were built",
 "After any calls on any tables, DrawTable draws a table at the place and with the row height and number of rows given to NewTableLayout, with the columns of its AddColumn calls and the rows of its AddRow and AddStyledRow calls in order, wherever these calls stand, and with the styles set last (also after the rows were added) or the defaults; calls on other tables do not matter; a column is aligned right or centred only for the words right and center, else left; each cell is drawn in its row and column with its text and its own style or the table's. Exception: AddStyledRow keeps the caller's slice, so that a caller who fills it again changes the rows added before.",
 "every history of calls on any number of tables and of changes to the caller's slices",
 "All orders of calls and all sharing of slices: a style or row that is applied too early or too late shows only in some orders.",
 ["table.go: NewTableLayout, AddColumn, AddRow, AddStyledRow, NewRowCell, SetTableStyle, SetHeaderStyle, SetCellStyle, DrawTable, drawCell"])
p("Text filled into placeholders is drawn",
 "Whatever was drawn, reserved and filled in before and after, a placeholder is written with exactly the glyphs its own font has for the characters of the text filled in last under its name, in their order, whichever font is current when it is filled; a placeholder never filled shows nothing; text filled in under other names does not matter. A character the font does not have is left out. Required: the font's glyph numbers have two bytes, and a missing character of the text is not itself the substitute of another. Exception: the substitute of a missing character, which Text draws, is not drawn in a placeholder.",
 "every history of text, placeholders and fills, every font, text and substitute function",
 "All histories: a character missing from the font's map shows only for texts whose characters were not used before.",
 ["gopdf.go: PlaceHolderText, FillInPlaceHoldText", "subset_font_obj.go: AddChars, CharIndex", "cache_content_text.go: write", "content_obj.go: appendStreamPlaceHolderText"])
p("Text is painted with the transparency asked for",
 "In the file that is written a viewer meets on every page one code for each character written there, in order, and each is shown in graphics states that have exactly the alpha and blend mode asked for: for CellWithOption those of the call's own option or, without one, of the last SetTransparency not cleared; Text, Cell, and everything while no transparency is in effect or its alpha is 1, are shown in no graphics state at all, so that no transparency leaks into text drawn after it or onto other pages. Exception (C34): text that continues the text before it at the same place takes over its transparency; required therefore is that texts of different transparency, the first of which has no rectangle, are separated by SetX, SetXY, Line or AddPage. An alpha is taken to thousandths.",
 "every program, every page and every character of it",
 "All programs: a graphics state that is left open, shared wrongly or not listed on a page shows only after the calls that made it.",
 ["gopdf.go: SetTransparency, ClearTransparency, CellWithOption, Cell, Text, saveTransparency, getCachedTransparency", "content_obj.go: AppendStreamSubsetFont", "cache_content_text.go: write, isSame", "ext_g_state_obj.go: GetCachedExtGState, write", "transparency.go: TransparencyMap.Find, Save", "procset_obj.go: write"])
p("Calls that return an error leave no trace on the pages",
 "After any program a call that does not panic returns an error exactly if it is a SetFont for a family and style (without its underline bit) under which no font was added, a SetColorSpace with a name that was not added, an AddColorSpace with one that was, an AddTTFFont with a file that is not taken, or a picture that, or whose mask, cannot be decoded. It then draws nothing and changes no setting: everything drawn, the cursor, font, size, colours, transparency, page, bookmarks and anchors are as before; no object changes except that the resource dictionary may have new entries; and only pictures with options and AddColorSpace leave new objects at all. In the file the text of every page is that of the program without the call, in the same fonts, sizes, spacings, colours and transparencies. Required: pictures with the same data can all be decoded or none.",
 "every program before and after the call, every call",
 "All histories: a call that fails halfway shows what it left behind only in later calls and in the file.",
 ["gopdf.go: SetFontWithStyle, SetColorSpace, addColorSpace, Image, ImageByHolderWithOptions, maskHolder, imageByHolder, AddTTFFontByReaderWithOption"])
p("Font definitions made by fontmaker",
 "LoadMap reads a map file as its lines say: a code has the character and the glyph name of its last line, and is .notdef without one. The differences that MakeFontEncoding makes from a map, written as an encoding object on WinAnsiEncoding, read back as the map: every one of the 256 codes has the name the map gives it. Every width in a definition is the advance width the font file's own tables give the glyph of the code's character, in thousandths of an em, rounded to the nearest; codes without a name, and characters the font does not have, get the width of glyph 0; the width measured for a string of codes is that of its glyphs up to half a thousandth of the size for each. The font descriptor written for a definition reads back as a description of the font file: ascent, descent, height of capitals, bounding box, italic angle, width of glyph 0, flags, stem width; the widths read back as 224 numbers, those of the codes 32 to 255, the font object with its name, these codes and references to its widths, descriptor and encoding, and the object of the font file as a stream with its length and its data, encrypted in a protected document; a definition is made exactly of the complete font files (C77) whose fsType is not 2 and does not have bit 9. Exceptions: for a map that agrees with cp1252.map at code 0 and not at code 1, no code is written before the first name, and the array of differences is not valid; a font with the restricted licence and another licence bit is taken. Required: a well-formed format 4 subtable with its segments in order.",
 "every map file of well-formed lines, every pair of encodings, every well-formed font file",
 "All encodings: a run of differing codes that is numbered wrongly shows only for the maps that have such a run.",
 ["fontmaker/core/fontmaker.go: LoadMap, MakeFontEncoding, MakeFontDescriptor, GetInfoFromTrueType, MultiplyAndRound, MultiplyAndRoundWithUInt64", "fontdescriptor_obj.go: write", "font_obj.go: write", "embedfont_obj.go: write", "fontconverthelper.go: FontConvertHelperCw2Str", "fontmaker/core/math.go: Round", "encoding_obj.go: write", "strhelper.go: StrHelperGetStringWidthPrecise", "fontmaker/core/ttfparser.go: ParseCmap, ParseHmtx, ArrayPadUint, ParseOS2, ParsePost"])
with open('/verif/properties.jsonl','w') as f:
    for x in P: f.write(json.dumps(x)+"\n")
print(len(P)); [print(x['id'],x['title']) for x in P]
