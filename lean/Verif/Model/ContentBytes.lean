import Verif.Model.Content
/-
The bytes of a page's content: the `write` methods of the items (cache_content_*.go, cache_contnent_curve.go,
cache_color_space.go, cache_contact_color_rgb.go) and `listCacheContent.write` (list_cache_content.go 62-69).
Simplifications: a number is a rational, not a float64: there is no NaN, infinity or negative zero, and
`strconv.FormatFloat(_, 'f', -1, 64)` of a multiple of 1/1000 prints that multiple.
-/
namespace Verif.Content
open Paint (PaintKind)

/-- To the nearest integer, halves to the even one: how `strconv` rounds decimal digits. -/
def roundHalfEven (x : ℚ) : Nat :=
  let n := ⌊x⌋.toNat
  if x - n < 1 / 2 then n else if 1 / 2 < x - n then n + 1 else if n % 2 = 0 then n else n + 1

/-- `%.kf`, `%0.kf` and `%.kF`. -/
def fixed (k : Nat) (q : ℚ) : Bytes :=
  let n := roundHalfEven (|q| * 10 ^ k)
  (if q < 0 then [45] else []) ++ dec (n / 10 ^ k) ++ [46] ++ padL k (dec (n % 10 ^ k))

/-- `FormatFloatTrim` (cache_content_text.go 184-190). -/
def trimmed (q : ℚ) : Bytes :=
  let n := (roundAway (1000 * q)).natAbs
  (if q < 0 then [45] else []) ++ dec (n / 1000) ++
    (if n % 1000 = 0 then [] else [46] ++ ((padL 3 (dec (n % 1000))).reverse.dropWhile (· == 48)).reverse)

/-- Space. -/
def sp : Bytes := [32]

/-- `%0.2f %0.2f`. -/
def pt (x y : ℚ) : Bytes := fixed 2 x ++ sp ++ fixed 2 y

/-- `/GS%d gs\n` for every element (cache_content_line.go 19-21, cache_content_rectangle.go 37-39,
cache_content_polygon.go 18-20, cache_content_image.go 82-84, cache_content_text.go 209-214). -/
def extBytes (ext : List Nat) : Bytes := ext.flatMap fun n => lit "/GS" ++ dec n ++ lit " gs\n"

/-- `PaintStyle` (style.go) as cache_content_rectangle.go 41 prints it, and the operator of cache_contnent_curve.go
40-46. -/
def paintByte : PaintKind → Bytes
  | .stroke => lit "S"
  | .fill => lit "f"
  | .both => lit "B"

/-- The operator of a polygon (cache_content_polygon.go 32-38). -/
def polygonEnd : PaintKind → Bytes
  | .stroke => lit " s\n"
  | .fill => lit " f\n"
  | .both => lit " b\n"

/-- The points of a polygon (cache_content_polygon.go 22-30, cache_content_clip.go 14-21). -/
def pathBytes (h : ℚ) : List (ℚ × ℚ) → Bytes
  | [] => []
  | p :: rest => pt p.1 (h - p.2) ++ lit " m " ++ rest.flatMap fun p => pt p.1 (h - p.2) ++ lit " l "

/-- `%.3f %.3f %.3f %s\n` (cache_contact_color_rgb.go 17-20, cache_content_text_color_rgb.go 12-15). -/
def rgbBytes (op : String) (r g b : Nat) : Bytes :=
  fixed 3 (r / 255) ++ sp ++ fixed 3 (g / 255) ++ sp ++ fixed 3 (b / 255) ++ sp ++ lit op ++ lit "\n"

/-- `%.2f %.2f %.2f %.2f %s\n` (cache_content_color_cmyk.go 17-20, cache_content_text_color_cmyk.go 12-15). -/
def cmykBytes (op : String) (c m y k : Nat) : Bytes :=
  fixed 2 (c / 100) ++ sp ++ fixed 2 (m / 100) ++ sp ++ fixed 2 (y / 100) ++ sp ++ fixed 2 (k / 100) ++ sp ++ lit op ++
    lit "\n"

/-- The `write` methods of the text colours. -/
def TextColour.bytes : TextColour → Bytes
  | .rgb r g b => rgbBytes "rg" r g b
  | .cmyk c m y k => cmykBytes "k" c m y k

/-- cache_content_text.go 223-225. -/
def colourBytes (t : TextItem) : Bytes :=
  if t.inColour then (match t.colour with | some c => c.bytes | none => []) else []

/-- `%0.2f %0.2f %0.2f %0.2f re`. -/
def reBytes (x y w h : ℚ) : Bytes := pt x y ++ sp ++ pt w h ++ lit " re"

/-- `underline` (cache_content_text.go 349-387). -/
def underlineBytes (e : Env) (t : TextItem) : Bytes :=
  let f := e.fonts t.font
  let coefLine := if t.opt.coefLineHeight ≠ 0 then t.opt.coefLineHeight else 1
  let coefPos := if t.opt.coefUnderlinePosition ≠ 0 then t.opt.coefUnderlinePosition else 1
  let coefThick := if t.opt.coefUnderlineThickness ≠ 0 then t.opt.coefUnderlineThickness else 1
  let asc := px f.ascender f t.fontSize
  let desc := - px f.descender f t.fontSize
  let leading := (asc + desc - coefLine * t.fontSize) / 2
  reBytes t.x (t.pageHeight - t.y + px f.underlinePosition f t.fontSize * coefPos - (asc + leading)) t.cellWidth
    (px f.underlineThickness f t.fontSize * coefThick) ++ lit " f\n"

/-- `%0.2f %0.2f m %0.2f %0.2f l s\n` (cache_content_text.go 307, 318, 329, 340). -/
def borderLineBytes (x1 y1 x2 y2 : ℚ) : Bytes := pt x1 y1 ++ lit " m " ++ pt x2 y2 ++ lit " l s\n"

/-- `drawBorder` (cache_content_text.go 296-347). -/
def borderBytes (t : TextItem) : Bytes :=
  let off := t.lineWidth / 2
  let y0 := t.pageHeight - t.y
  (if has t.opt.border top then borderLineBytes (t.x - off) y0 (t.x + t.cellWidth + off) y0 else []) ++
  (if has t.opt.border left then borderLineBytes t.x y0 t.x (y0 - t.cellHeight) else []) ++
  (if has t.opt.border right then
    borderLineBytes (t.x + t.cellWidth) y0 (t.x + t.cellWidth) (y0 - t.cellHeight) else []) ++
  (if has t.opt.border bottom then
    borderLineBytes (t.x - off) (y0 - t.cellHeight) (t.x + t.cellWidth + off) (y0 - t.cellHeight) else [])

/-- `cacheContentText.write` (cache_content_text.go 192-294). -/
def textBytes (e : Env) (t : TextItem) : Bytes :=
  (if t.opt.ext ≠ [] then lit "q\n" else []) ++ extBytes t.opt.ext ++ lit "BT\n" ++
  (pt (calX t) (calY e t) ++ lit " TD\n") ++
  (lit "/F" ++ dec t.font ++ sp ++ trimmed t.fontSize ++ lit " Tf " ++ trimmed t.charSpacing ++ lit " Tc\n") ++
  colourBytes t ++
  TextRun.tjBytes (TextRun.tjLoop (e.fonts t.font).run (justOf t) (0, 0) (TextRun.withIndex 0 t.text)) ++ lit "ET\n" ++
  (if has t.fontStyle underline then underlineBytes e t else []) ++ borderBytes t ++
  (if t.opt.ext ≠ [] then lit "Q\n" else [])

/-- `computeRotateTransformationMatrix` (cache_content_rotate.go 34-42). -/
def rotateBytes (e : Env) (x y angle h : ℚ) : Bytes :=
  fixed 5 (e.cos angle) ++ sp ++ fixed 5 (e.sin angle) ++ sp ++ fixed 5 (-e.sin angle) ++ lit "\n " ++
  fixed 5 (e.cos angle) ++ sp ++ pt x (h - y) ++ lit " cm\n 1 0 0\n 1 " ++ pt (-x) (-(h - y)) ++ lit " cm\n"

/-- cache_content_image.go 80-144. -/
def imageInnerBytes (e : Env) (i : ImageItem) : Bytes :=
  lit "q\n" ++ extBytes i.ext ++
  (if i.horizontalFlip || i.verticalFlip then
    (if i.horizontalFlip then lit "-1" else lit "1") ++ lit " 0 0 " ++ (if i.verticalFlip then lit "-1" else lit "1") ++
      lit " 0 0 cm\n" else []) ++
  (match i.clipRect with | some (x, y, w, h) => reBytes x y w h ++ lit " W* n\n" | none => []) ++
  (lit "q\n " ++
    (if i.maskRotates then
      rotateBytes e (i.x + i.rect.w / 2) (i.y + i.rect.h / 2) (i.maskAngle + i.imageAngle) i.pageHeight else []) ++
    sp ++ fixed 2 i.place.a ++ lit " 0 0\n " ++ fixed 2 i.place.d ++ sp ++ pt i.place.e i.place.f ++ lit " cm /I" ++
    dec (i.index + 1) ++ lit " Do \nQ\n") ++
  lit "Q\n"

/-- `cacheContentImage.write` (cache_content_image.go 68-151). -/
def imageBytes (e : Env) (i : ImageItem) : Bytes :=
  if i.withMask then imageInnerBytes e i
  else lit "q\n " ++ rotateBytes e (i.x + i.cropSize.1 / 2) (i.y + i.cropSize.2 / 2) i.imageAngle i.pageHeight ++
    imageInnerBytes e i ++ lit "Q\n"

/-- `%0.2f` of six numbers and ` c` (cache_content_oval.go 31-46, cache_contnent_curve.go 36-39). -/
def curveBytes (p q r : ℚ × ℚ) : Bytes := pt p.1 p.2 ++ sp ++ pt q.1 q.2 ++ sp ++ pt r.1 r.2 ++ lit " c"

/-- `%0.2f` of a slice: `[a b]`. -/
def sliceBytes : List ℚ → Bytes
  | [] => lit "[]"
  | a :: rest => lit "[" ++ fixed 2 a ++ rest.flatMap (fun b => sp ++ fixed 2 b) ++ lit "]"

/-- The three lines of cache_content_line_type.go 12-22. -/
def lineTypeBytes (dashed dotted : Bool) : Bytes :=
  if dashed then lit "[5] 2 d\n" else if dotted then lit "[2 3] 11 d\n" else lit "[] 0 d\n"

/-- The `write` methods of the items. -/
def itemBytes (e : Env) : Item → Bytes
  | .text t => textBytes e t
  /- cache_content_line.go 17-25 -/
  | .line h x1 y1 x2 y2 ext =>
    lit "q\n" ++ extBytes ext ++ (pt x1 (h - y1) ++ lit " m " ++ pt x2 (h - y2) ++ lit " l S\n") ++ lit "Q\n"
  /- cache_content_rectangle.go 34-50 -/
  | .rectangle h x y wd ht st ext =>
    lit "q\n" ++ extBytes ext ++ (reBytes x (h - y) wd ht ++ sp ++ paintByte st ++ lit "\n") ++ lit "Q\n"
  /- cache_content_polygon.go 15-42 -/
  | .polygon h pts st ext => lit "q\n" ++ extBytes ext ++ pathBytes h pts ++ polygonEnd st ++ lit "Q\n"
  /- cache_content_oval.go 16-49 -/
  | .oval h x1 y1 x2 y2 =>
    let cp : ℚ := 55228 / 100000
    let v1 := (x1 + (x2 - x1) / 2, h - y2)
    let v2 := (x2, h - (y1 + (y2 - y1) / 2))
    let v3 := (x1 + (x2 - x1) / 2, h - y1)
    let v4 := (x1, h - (y1 + (y2 - y1) / 2))
    let dx := (x2 - x1) / 2 * cp
    let dy := (y2 - y1) / 2 * cp
    (pt v1.1 v1.2 ++ lit " m\n") ++ (curveBytes (v1.1 + dx, v1.2) (v2.1, v2.2 - dy) v2 ++ lit "\n") ++
    (curveBytes (v2.1, v2.2 + dy) (v3.1 + dx, v3.2) v3 ++ lit "\n") ++
    (curveBytes (v3.1 - dx, v3.2) (v4.1, v4.2 + dy) v4 ++ lit "\n") ++
    (curveBytes (v4.1, v4.2 - dy) (v1.1 - dx, v1.2) v1 ++ lit " S\n")
  /- cache_contnent_curve.go 21-48 -/
  | .curve h p0 p1 p2 p3 st =>
    (pt p0.1 (h - p0.2) ++ lit " m\n") ++ curveBytes (p1.1, h - p1.2) (p2.1, h - p2.2) (p3.1, h - p3.2) ++ sp ++
      paintByte st ++ lit "\n"
  /- cache_content_clip.go 13-24 -/
  | .clipPolygon h pts => pathBytes h pts ++ lit "h W n\n"
  | .image i => imageBytes e i
  /- cache_content_imported_object.go 17-21 -/
  | .template h sx sy tx ty name =>
    lit "q 0 J 1 w 0 j 0 G 0 g q " ++ fixed 4 sx ++ lit " 0 0 " ++ fixed 4 sy ++ sp ++ fixed 4 tx ++ sp ++
      fixed 4 (ty + h) ++ lit " cm " ++ name ++ lit " Do Q Q\n"
  /- cache_content_rotate.go 15-32 -/
  | .rotate h a x y => lit "q\n " ++ rotateBytes e x y a h
  | .rotateReset => lit "Q\n"
  /- cache_content_graphics_state.go -/
  | .save => lit "q\n"
  | .restore => lit "Q\n"
  /- cache_content_gray.go 16-19 -/
  | .gray st v => fixed 2 v ++ sp ++ (if st then lit "G" else lit "g") ++ lit "\n"
  | .rgb st r g b => rgbBytes (if st then "RG" else "rg") r g b
  | .cmyk st c m y k => cmykBytes (if st then "K" else "k") c m y k
  /- cache_content_line_width.go 12-15 -/
  | .lineWidth x => fixed 2 x ++ lit " w\n"
  /- cache_content_custom_line_type.go 13-16, cache_content_line_type.go 12-22 -/
  | .dash a ph => sliceBytes a ++ sp ++ fixed 2 ph ++ lit " d\n"
  | .lineType a b => lineTypeBytes a b
  /- cache_color_space.go 12-15 -/
  | .colourSpace n => lit "/CS" ++ dec (n + 1) ++ lit " CS 1.0000 SCN\n"

/-- What writing an item leaves in it: `cacheContentImportedTemplate.write` adds the page height to its own `tY`
(cache_content_imported_object.go 18); no other `write` changes its item. -/
def afterWrite : Item → Item
  | .template h sx sy tx ty name => .template h sx sy tx (ty + h) name
  | i => i

/-- `listCacheContent.write` (list_cache_content.go 62-69): the bytes, and the items afterwards. -/
def writeItems (e : Env) (items : List Item) : Bytes × List Item := (items.flatMap (itemBytes e), items.map afterWrite)

end Verif.Content
