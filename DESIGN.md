# Formal model of signintech/gopdf in Lean 4

## Layout

* `lean/Verif/Base/*`   – byte strings, decimal and hexadecimal text, big-endian numbers (spec-side decoders too).
* `lean/Verif/Model/*`  – the model, function by function; every definition cites `/repo` file and lines.
* `lean/Verif/Spec/*`   – small specifications written independently of the model (PDF reader, PDF string reader,
  UTF-16 decoder, standard security handler, PNG unfilter, cmap relation, ...).
* `lean/Verif/Lemmas/*` – helper lemmas.
* `lean/Verif/Props/*`  – the property theorems, one file per topic, each followed by `example`s that a concrete
  non-trivial case meets the hypotheses; theorems named `..._fails` are proved negations (with a concrete witness)
  of a property the code violates.

## Trusted base

1. Lean 4.33's kernel, and of axioms only Lean's own `propext`, `Classical.choice`, `Quot.sound`; which theorem depends on
   which is listed in `AXIOMS.md` (generated by `tools/axioms.py` from `#print axioms`).  No axiom is declared here, nothing
   rests on compiled code.
2. The reading of the Go source: the theorems are about the model; the tie to the code is the citation beside each
   definition. The code is not run here.
3. Go runtime and library behaviour assumed: `fmt.Fprintf("%d")` prints decimal, `%X`/`%04X` upper-case hex,
   `bytes.Buffer`, `strings.Replace`, `range` over a string yields code points, `crypto/rc4` is RC4 and
   `crypto/md5` is a function of its input with a 16-byte result (a parameter of the model), zlib is a
   lossless codec (a parameter).
4. Floating point: arithmetic is modelled over exact rationals (`Rat`) or abstracted by an arbitrary
   predicate/function, so rounding is outside the model. Where the code only *compares* measured widths, the
   comparison is an arbitrary Boolean function, which covers float64 exactly.
5. The specifications in `lean/Verif/Spec`: they say what a reader of the file does (ISO 32000-1, ISO/IEC 15948, OpenType,
   Unicode joining types) and are part of the statements.

## What is modelled

| Go code | model |
|---|---|
| gopdf.go 1012-1104, 2287-2362 (writer, xref, trailer, Read) | `Compile`, `Reader` (byte exact) |
| gopdf.go: the object list and every call that adds or changes an object; pages_obj, page_obj, procset_obj, ext_g_state_obj, smask_obj, transparency_xobject_group, outlines_obj (AddOutline), annot_obj | `Doc` (state machine), references in `Spec/DocRefs` |
| every `write` of the types in `*_obj.go` and the file made of them | `Objects`, `Streams` (byte exact; the caller's values are an environment) |
| outlines_obj.go 168-218 | `OutlineTree` |
| pdf_info_obj, gopdf.go 2318-2393 | `Info`, `InfoDate` |
| encryption_obj, pdf_protection, stream objects | `Protect`, `Escape`, `Streams` (byte exact) |
| config.go, rect.go, margin.go, gopdf.go 343-485 | `Units` |
| break_option.go, gopdf.go 1324-1518 | `Split` |
| fontmaker/core/ttfparser*.go, map_of_character_To_glyph_index.go, subset_font_obj.go, unicode_map.go, pdf_dictionary_obj.go, buff*.go | `TTF`, `CharMap`, `TextRun`, `Embed` (byte exact) |
| image_obj_parse.go (PNG) | `PNG` (byte exact) |
| buffer_pool.go and its four users, gopdf.go 1043-1083, run by several goroutines | `Pool` (interleaving of atomic uses of pool, buffers and writers; Go's memory model and sync.Pool itself are trusted) |
| gopdf.go 207-213, 502-537, 2401-2456, content_obj.go 315-320, 382-407, ext_g_state_obj.go 45-104: which memory of the caller is kept or changed | `Caller` (variables as cells; overlapping slices of one array are left out) |
| image_obj.go, gopdf.go 488-731 (sizes) | `ImageSize` |
| from a PNG, JPEG or GIF file to the image object (image_obj_parse.go 115-127, 137-208, 257-267, 384-394) | `Pictures` |
| MultiCell, IsFitMultiCell, MultiCellWithOption, SplitTextWithOption, DrawTable, AddHeader, AddFooter, AddPage with header and footer as calls on the library's state, with the characters every measurement adds (gopdf.go 806-868, 1166-1399, 2193-2196, table.go 162-314) | `Layout` |
| content_obj.go, list_cache_content.go, cache_content_*.go, drawing calls of gopdf.go | `Content` (operators), `ContentBytes` (byte exact), `Measure`, `MultiCell`, `Rectangle` |
| placeholder.go, gopdf.go 1400-1476 | `PlaceHolder` |
| table.go | `Table`; making a table, adding columns and rows, styles (29-159): `TableBuild` |
| gopdf.go 1400-1476 (characters of placeholders) | `Filled` |
| arabic_helper.go, arabic_alphabet.go | `Arabic` |
| font_container.go | `Container` |
| gopdf.go 165-189, content_obj.go 25-50 | `CompressLevel` |
| the calls of gopdf.go acting on objects and content together | `Program` |
| fontmaker/core/ttfparser*.go: metrics, name and kerning tables; AddTTFFont from bytes, AddChars of the drawing and measuring calls, what is written of each font (subfont_descriptor_obj, cid_font_obj) | `TTFTables`, `Typeset`, `TypesetMeasure` |
| gopdf.go 1520-1703: ImportPage, ImportPageStream, ImportPagesFromSource, UseImportedTemplate, ImportObjects, ImportTemplates (gofpdi itself is a dependency: a parameter) | `Import` |
| the life of one object: gopdf.go 871-918 Start, 2134-2184 init, AddHeader, AddFooter, GetNumberOfPages, with information, compression level and files written in between | `Restart` |
| image_holder.go; gopdf.go 488-593, 650-798: which data an image is made from (MD5, files and the parsers as parameters) | `Holder` |
| font_option.go, style.go, transparency.go 9-55 and 97-136, the style strings of curves, polygons and line types | `Options` |
| fontmaker/core/fontmaker.go 212-323, 362-490, math.go, encoding_obj.go, fontdescriptor_obj.go, font_obj.go 27-47, embedfont_obj.go 25-51, fontconverthelper.go 10-19, strhelper.go 9-25: map files, and the encodings, widths, descriptors, fonts and font files of font definitions (objects `GoPdf` itself no longer makes) | `FontMaker` |
| the rectangles, sizes and heights those calls compute (gopdf.go 857, 871-918, 1698-1735, page_option.go, box.go) | `Placing` |

## What is not modelled

* reading of files; decoding of JPEG and GIF data (Go's image packages are parameters, `Pictures.Codec`);
* package gofpdi, which reads the files pages are imported from: what it answers is a parameter (C76);
* of the command `fontmaker` the text of the Go files it writes;
* conveniences that only call modelled functions with constants (page sizes, `GetX`, …);
* goroutines sharing one `GoPdf` (it is not meant to be shared); the two structures that are shared (the fonts of a container, the pool of
  buffers) are modelled with interleavings (`Container`, `Pool`);
* rounding of float64 arithmetic (see above).

## Plan per property

| id | modelled how | proved how |
|----|--------------|-----------|
| C01 | `compilePdf`, `xref`, `formatXrefline` over arbitrary object bodies, bytes exact | an independent reader (find startxref from the end, parse the table, jump) is shown to return each object's body; induction over the object list |
| C02 | trailer bytes; `prepare` in the document state machine | reader + invariant |
| C03 | document state machine (`Doc`, `Op`, `step`) | prefix-preservation by induction over ops |
| C04 | every structural object written as a token list containing `ref n` tokens | invariant over ops; theorem about refs in compiled object list |
| C05 | `prepare` | fold characterisation |
| C06 | `prepare` twice | exact effect; repeatability refuted for every document with a page |
| C07 | `getContent`, `prepare` | ghost-free statement: log of (page, content) from the op list compared with the compiled pages |
| C08 | `SetPage` | under "each page has content"; refuted without |
| C09 | `Read`, `Close`, `bytes.Buffer` | induction over chunk sizes |
| C10 | `countingWriter`, writer with a failure point | count proved; error reporting fails (negation) |
| C11–C13 | `SplitTextWithOption` and helpers with fuel; width comparison an arbitrary predicate | induction over the loop with an accumulator invariant; non-termination proved for a witness |
| C14, C15 | `OutlinesObj`, `OutlineNodes.Parse` on an object store | invariants; negations for /Parent and for `SetNext` |
| C16 | `escape` as four sequential replacements | equivalence with one-pass escape, round trip with a PDF literal-string reader |
| C17 | `encodeUtf8` | round trip for BMP; negation beyond |
| C18–C20 | RC4 concretely; MD5 as parameter | involution, security handler spec (Algorithm 2, 3, 4, 6, 7 of ISO 32000) |
| C21, C22 | conversions over `Rat` | algebra; negation for the unit mix-up |
| C23–C26 | font registry, char map, CMap, cmap format 4/12 | invariants, relational cmap spec |
| C27–C30 | glyf/loca builder, directory, Buff, checksum | byte-level slices; success for complete fonts (`Spec/FontComplete`): the copy loop writes exactly the sizes added up, the walk over component records by induction on the records |
| C31, C32 | PNG row split, PNG unfilter spec, chunk walk | commutation of unfilter with channel projection |
| C33, C34 | content cache list, operators as tokens | balance by induction, semantics of merged text |
| C35–C38 | resource caches within the state machine | invariants |
| C39–C41 | width sums over `Rat`, calX/justify, MultiCell loop | algebra and induction |
| C42 | table geometry | induction |
| C43 | shaping functions | structural induction |
| C44 | two documents sharing a container | independence of steps |
| C45–C47 | placeholder, rectangle, compression | algebra; negations |
| C48, C50 | drawing calls and their operators; a canvas as specification, a reader of operators (graphics state machine) | simulation: the reader's painted figures are those of the canvas, by induction over the calls |
| C49 | `Rotate`, `rotateOps` | matrix algebra with `cos² + sin² = 1` |
| C51 | `ImageOptions`, size cache | induction over the calls |
| C52 | borders and underline of `cellWithOption` | exact list of shapes, algebra |
| C53 | every `write` of the content cache as bytes (`ContentBytes`); a tokenizer and operator parser as specification | reading is compositional over appended pieces; rounding bounds; simulation of the two runs of the operator machine |
| C54 | what `write` changes in the cache (`afterWrite`) | induction over the writings |
| C55 | every `write` of every object as bytes (`Objects`); a tokenizer and parser of PDF objects as specification (`PdfObject`), the intended dictionaries (`ObjectValue`) | reading is compositional over appended pieces (stack machine); invariants of the state machine for references |
| C56 | the above, `SetProtection` and the file layout together; a file reader as specification (`FileReader`) | composition of C01, C05, C07, C18, C19, C55 |
| C57 | `infodate` from the fields `time.Format` uses; a PDF date reader as specification | digits back and forth, arithmetic on the zone |
| C58 | every call acting on the document and on the content at once (`Program`); a viewer as specification (`Viewer`) | the two models stay in step: tags, pages and resource numbers, invariants by induction over the program; composition of C53, C55, C56 |
| C59 | the same; the text a program asks for as specification (`Asked`) | codes of a page by induction over the program, `/ToUnicode` from C25 |
| C60 | the same, with the content of mask groups (`maskItem`); what figures use (`Used`) and what the file holds (`Shows`) as specifications | the canvas of C48 and the document stay in step: every figure's graphics states, picture and colour space denote what its call asked for, by induction over the program; then composition with C55 |
| C61–C63 | sizes, links, anchors and bookmarks of a program computed by the calls themselves (`Placing`: heights, rectangles, trim boxes), stored through the document model; a plan of what was asked for and a viewer of boxes, annotations and bookmarks as specification | invariant tying the document's pages, links, anchors and bookmarks to the plan, by induction over the program; composition with C55 and C56 |
| C64 | the fonts as the bytes the caller gives, parsed with all tables (`TTFTables`), their character maps growing while the program runs (`Typeset`); wishes of the caller (font file and character) and what a viewer draws for a code as specification | simulation: the typesetting steps are steps of `Program` with the maps of the end; composition with C26–C28, C58 and C59 |
| C65–C67 | the measuring calls in the state of a program (`TypesetMeasure`); widths, kerning, metrics and descriptors of a font file as specification (`FontMetrics`), the arrays shown on a page (`Runs`) | what parsing a font gives is what its tables say; the current setting is that of the last successful calls, by induction over the program; composition with C39 and C64 |
| C68 | the parse of `PNG`, the object it becomes (`Pictures`, `Objects`); the pixels of a PNG file and of an image in a PDF file as specification (`Spec/Pictures`) | the parse is the header, the palette, the key and the data of the file (C31, C32); filters undone on both sides agree sample by sample; composition with C55 and C60 |
| C69 | MultiCell, IsFitMultiCell, MultiCellWithOption, DrawTable, AddHeader, AddFooter and AddPage as the calls they make, measuring included (`Layout`); the text a program writes as a plain program (`Spec/Layout`: `Kept`, `Writes`, `Written`) | every loop makes calls that change neither font nor page, and the texts of its Cell calls together are the text (invariants of the loops); measuring the same text twice with the same settings gives the same, so IsFitMultiCell and MultiCell decide alike; composition with C64 |
| C70 | the text state of a viewer - font, size, character spacing, fill colour - followed over the operators of a page (`Spec/TextLook`: `letters`); what the caller chose for each character (`inked`) | every item writes its own Tf, Tc and colour before its TJ; the characters of an item were all written in its style (invariant over the program, joins included); rounding of the numbers; composition with C64 |
| C71 | the same reader: a code right after the one Td of a text object has a place; the place asked for from the arguments, the page height and the metrics of the font file (`Spec/TextLook`: `Placed`, `Aligned`) | after SetXY the text is an item of its own (no item has the new SetX count); calX, calY with the measured width; the characters of a page only grow, so the index in the file is the number of characters written before; composition with C70 |
| C72 | `parseImg` for all formats (`Pictures`), Go's image packages as a parameter (`Codec`); what makes an image of a PDF file a JPEG file (`Spec/Shows`: `IsJpeg`) | the object's dictionary and data as in C55, the object from the calls as in C68; composition with C60 |
| C73 | goroutines as tasks over the pool, the buffers and their writers (`Pool`); one step per use; any interleaving (`Steps`) | an invariant over all steps: buffers in the pool are empty and nobody has them, what a goroutine has still to write does not depend on the others; its run alone is the file of C01-C56 |
| C74 | the caller's variables as cells the library may keep a reference to or change (`Caller`), the file read off at the end; the specification evaluates the program with the caller's assignments only | induction on the program, relating cells to the caller's view and every kept reference to its final value |
| C75 | `St.containsGlyph` in the state of a program (`TypesetMeasure`) against the `cmap` table of the caller's file (`Gives`) | the library has a current font exactly if the caller has chosen one (induction on the program); lookup is complete for a well-formed table (C26) |
| C76 | programs with imports (`Import`), the importer's answers as parameters, its duties as specification (`Numbered`, `Fits`); the file and its pages as in C55 and C58 | texts kept by index and objects only appended (invariant); the loop over numbers adds exactly the new objects; the pages' items computed by induction on the source |
| C77 | `TTF.load` on any byte string, against a list of what a complete font file has (`Spec/FontAccept`) | for every reading loop the exact extent it needs, by induction; both directions of every table; panics excluded table by table |
| C78 | the life of one object (`Model/Restart`): what a second Start sets, field by field, and what it leaves; files written in between | simulation between the used and the new object: every call commutes with adding to the page counter; the counter by induction over lives |
| C79 | MultiCell and MultiCellWithOption of `Layout`, after any program; widths of lines by the font file (`Spec/FontMetrics`: `Measures`), legal wrappings (`Spec/Wrap`), filled columns (`Spec/Column`) | one function gives every measurement made with the same settings (C69's lemmas); the loops are then those of C11-C13 and C41 for that function; without kerning widths add up; a line with its separator: the index of the separator was last set where it fitted after at least the characters that are kept (invariant of the splitting loop, `Lemmas/SplitFit`); tables: cell by cell, with the font each cell sets |
| C80 | image holders, files and the images of any number of documents (`Holder`): names, data read once, what the image object is made for; the data meant, from the caller's acts (`Spec/Holder`) | invariant over all histories: every holder has its data or nothing, every image belongs to a name and a use asked for |
| C81 | the functions that read style strings, character by character (`Options`); Unicode's capitals as a hypothesis (`Spec/Options`) | case analysis over all strings, composed with C23 for SetFont and with `Content` for what is written |
| C82 | the same programs (`Typeset`, `Layout`): a step of the model is `none` exactly where the code panics; what a call needs (`Spec/Panics`) | every operation of the document panics iff font or page is absent; with the invariants of C64 every glyph and width read exists; the loops of MultiCell and IsFitMultiCell by induction, SplitTextWithOption by refinement of C12 |
| C83 | `Model/TableBuild`: tables and the caller's slices in one state, a table's row being its own or the caller's slice; the specification reads a table off the list of calls | induction over the history from its end, with the invariant that no call names a table or slice not yet made; cells by C42 |
| C84 | `Model/Filled`: PlaceHolderText, FillInPlaceHoldText and Text on the maps of any number of fonts; what is written at the end with the final maps | invariant: every character of a map is the font's own or a substitute, maps only grow, and the text of a placeholder has its available characters in its font's map; reading back by the TJ reader of C25 |
| C85 | the program and file model of C64; `Viewer.tints` reads the graphics state names in force at each code off the decoded operators, `Viewer.Tinted` looks them up in the page's resources in the file; `Typeset.tinted` reads the requests off the calls | induction over the program with the invariant that the last text of the current page has the transparency `Parted` tracks, and that texts only join across calls that do not part them; then `tints` of the rendered page is the transparency of the cached texts, and names resolve as in C48 |
| C86 | the program model; `Program.Fails` says in terms of the calls before which calls return an error | fonts and colour spaces of a reachable document are exactly those added (induction over the operations), cached pictures were decoded; a relation (`Doc.Quiet`) kept by every step of the operations that can fail; for the file, the readings of C70 and C85 do not change when the call is deleted |
| C87 | `LoadMap`, `MakeFontEncoding`, the encoding object and the widths of `GetInfoFromTrueType` (`FontMaker`); a reader of `Differences` arrays (Table 114) and of map files as specification | induction over the codes: the reader's next code follows the last one written; lexing lemmas of C55; the list of characters is the cmap's (C26) |

Every property is stated in `properties.jsonl` with the conditions under which it holds; each condition is shown to be needed by
a theorem named `..._fails`, which is a counterexample in the model.

## Findings in the code

* Compiling: each compile appends all pages to /Kids again (C06); no write error is ever reported (C10).
* Pages: SetPage counts content streams, not pages (C08), and restores neither the page's size nor its index, so that drawing is placed with the height of the page added last (C48) and links go to the last page (C38).
* Bookmarks: /Parent is 2, the page tree (C14); OutlineNodes.Parse sets /Next where /Prev was meant (C15); bookmarks and anchors before the first page point to object 0 (C04).
* Links: an unknown anchor is silently no destination (C38); links, anchors and bookmarks are placed with the document's default height instead of the page's (gopdf.go 857, 1706-1719, 1731; C61, C62); an external link with an empty address is a link to the anchor named ""; AddOutline leads to the lower edge of the page.
* Page boxes: config.TrimBox is never written; a trim box is printed as left, top, right, bottom without turning y over, so that one with different margins above and below is upside down; a trim box given with a page but without a size is not written (C63).
* Info: characters beyond U+FFFF are written so that they cannot be recovered (C17); the same in ToUnicode (C25), whose codespace range can exclude used codes and whose blocks can exceed 100 entries.
* Date: the minutes of the time zone are written as 00 (C57).
* The group of a mask is written without a `/Resources` entry although its stream names an image and graphics states (transparency_xobject_group.go 32-63): viewers have to fall back on the page's resources (C60 states what they find there).
* Protection: transparency groups are not encrypted (C18); permission bits above 8 are inverted (C20).
* Units: the page size of a PageOption ignores the conversion factor (C21); SetNewY and SetNewYIfNoOffset mix units and points (C22); crop windows are not converted (C51); a placeholder's width is converted the wrong way (C45).
* Fonts: a font registered with the underline style is drawn with another font's resource (C23); the Go files of `fontmaker` call `gopdf.Chr`, which is commented out (ifont.go 30), so they do not compile (not modelled); it takes restricted fonts, and some maps give invalid encodings (C87); only one level of composite glyphs is embedded (C28); characters mapped to glyph 0 are not substituted; the kern subtable's format test is wrong and only the last subtable is kept; a cmap without a final segment makes lookups panic (C26); a container has one font per family; AddTTFFontData keeps the caller's slice (C44).
* Images: PNG reading stops at an empty chunk (C32) and pads truncated chunks with zeros; an indexed tRNS keeps only the first transparent index; a palette image first used as a mask gets a wrong colour space (C04) and an alpha image first used as a mask is later drawn as a mask (C35); an image before the first page leaves an orphan (C35); an image drawn without size repeats the first size, one pixel has size 0 (C51); a masked image that is mirrored and turned is misplaced (C50); ImageByHolderWithOptions converts the caller's mask options in place, each time they are passed, and keeps the crop window (C74); the opacities of a palette are dropped unless one entry is fully transparent, and then only that one counts (image_obj_parse.go 332-341; C68); a picture drawn through a mask loses its own alpha channel, an opaque one used as a mask has empty data (image_obj.go 45; C68).
* Templates: writing the document again moves every imported template up by the page height, because the write adds the height to the stored position (C54).
* Objects: writing a second time makes `/Contents 5 0 R 5 0 R`, a malformed page dictionary (C55); an image without alpha used as a mask has empty data (image_obj.go 45); bookmark titles and information entries of protected documents are not encrypted; a link with an empty address or unknown anchor is an empty object; font families and colour space names are written without escapes; a page option with a TrimBox and no size is ignored (gopdf.go 815).
* Transparency: an opaque setting after an almost opaque one reuses its state (C36); Text and PlaceHolderText ignore SetTransparency; a blend mode with alpha 1 is ignored; a Transparency changed after a drawing changes the drawing, because its graphics state points to it (C74).
* Importing: ImportPagesFromSource gives the size of the source's page in points to UseImportedTemplate, which converts it from the document's unit again, so that in millimetres the page is 2.8 times too large; it adds pages of the document's size, not of the source's; streams of imported objects are not encrypted in a protected document, which a viewer will decrypt all the same; ImportObjects loses objects after a gap in the numbers (all C76).
* Colour: a rejected colour space leaves an object (C37); the text colour becomes the fill colour of later figures (C48); SetCustomLineType converts the caller's slice in place and keeps it, so that a second call with it changes the first line (C74).
* Text: a joined text loses its colour mode, transparency and rectangle (C34); Br(0) before joined text is undone, character spacing is truncated when measuring (C39); the underline of Text lies an ascender too low, that of an aligned cell ignores the alignment (C52); splitting loops forever for a character wider than the line and can panic with a separator (C12, C13).
* MultiCell: drops text silently, overflows by its last line, draws an empty first line; with Float Bottom moves twice; justifies the ends of paragraphs; MultiCellWithOption puts four or more lines aligned Bottom or Middle too low (C41); IsFitMultiCellWithNewline counts no height for empty lines; with kerning a line can be wider than the rectangle, because the kerning before its last character is not counted (C79).
* Font files: a file whose `hhea` announces no advance width makes AddTTFFont panic (ttfparser.go 803, index 0 - 1); a PostScript name made only of the digit 0 is taken for empty and refused (line 565 removes the character `0`, not the byte 0) (C77).
* Start: called again it keeps the header and footer functions and the page counter of the document before (C78).
* Image holders: a holder is empty after its first drawing, so it cannot be drawn in a second document, after Start, or after a drawing that failed; a changed file is drawn as it was; one cache serves pictures and masks, so a picture used both ways is drawn as at its first use (C80).
* Options: SetFont(family, "regular", size) underlines and "underline" is italic, because styles are looked for as letters (C81); the PaintStyle of DrawableRectOptions is written unchecked, so "D" or "DF" there makes a malformed stream (cache_content_rectangle.go 41).
* Placeholder: measured with the current font, shifted again by a second fill, no underline (C45); missing characters are left out instead of substituted (C84).
* AddStyledRow keeps the caller's slice: filling it again changes the rows added before (C83).
* Table: the border ignores rows beyond the maximum, a row longer than the columns panics, black is no background, a missing font is ignored (C42).
* Arabic: leading marks are dropped; forms after jeh and before hamza are wrong; digits are reversed (C43).
* Shapes: Rectangle accepts radii up to the whole width (C46); a polygon without points writes a malformed stream (C33); a compression level above 9 is ignored (C47).
