import Verif.Spec.Paint
import Verif.Model.TextRun
import Verif.Model.Units
import Mathlib.Data.Rat.Floor
/-
Drawing: the calls that draw on a page, the items they append to the page's content, and the operators the items are
written as (gopdf.go, content_obj.go, list_cache_content.go, cache_content_*.go, cache_contnent_curve.go,
cache_color_space.go, cache_contact_color_rgb.go).
Simplifications:
* float64 arithmetic is exact rational arithmetic and operands are not rounded to the two to five decimals written;
  the operators are a list, not bytes;
* cosine and sine are two arbitrary functions;
* the state begins with the first page present; pages are numbered from 0;
* text is the list of runes `AddChars` returned (Model/CharMap.lean models that function); the fonts' maps from characters
  to glyphs are the final ones - an entry never changes once made (`char_glyph_stable`);
* the number of a graphics state dictionary for a transparency is a parameter of the call (Model/Doc.lean models how it is
  found).
-/
namespace Verif.Content
open Units (Cfg toPoints fromPoints)
open Paint (Op Mat Colour PaintKind)
open TextRun (RunFont)

/-- A font as drawing sees it: glyph data, and the metrics of the typographic tables in font units. -/
structure Font where
  run : RunFont
  typoAscender : Int := 0
  typoDescender : Int := 0
  ascender : Int := 0
  descender : Int := 0
  underlinePosition : Int := 0
  underlineThickness : Int := 0

/-- Everything drawing reads and does not change. -/
structure Env where
  cfg : Cfg
  /-- by `fontCountIndex`, the number in `/F%d` -/
  fonts : Nat → Font
  cos : ℚ → ℚ
  sin : ℚ → ℚ

/-- `cacheContentTextColorRGB`, `cacheContentTextColorCMYK` (cache_content_text_color_*.go). -/
inductive TextColour where
  | rgb (r g b : Nat)
  | cmyk (c m y k : Nat)
  deriving DecidableEq, Repr

/-- Their `write` and that of cache_contact_color_rgb.go, cache_content_color_cmyk.go: what the operands mean. -/
def rgbColour (r g b : Nat) : Colour := .rgb (r / 255) (g / 255) (b / 255)
def cmykColour (c m y k : Nat) : Colour := .cmyk (c / 100) (m / 100) (y / 100) (k / 100)
def TextColour.colour : TextColour → Colour
  | .rgb r g b => rgbColour r g b
  | .cmyk c m y k => cmykColour c m y k

/-- `CellOption` (cell_option.go 21-33) without `BreakOption`; `Transparency` has been looked up and is in
`extGStateIndexes`. -/
structure CellOption where
  align : Nat := 0
  border : Nat := 0
  float : Nat := 0
  coefUnderlinePosition : ℚ := 0
  coefLineHeight : ℚ := 0
  coefUnderlineThickness : ℚ := 0
  ext : List Nat := []
  deriving DecidableEq, Repr

/-- `x&bit == bit`. -/
def has (x bit : Nat) : Bool := x &&& bit == bit

/-- cell_option.go 3-18. -/
def left : Nat := 8
def top : Nat := 4
def right : Nat := 2
def bottom : Nat := 1
def center : Nat := 16
def middle : Nat := 32
def justify : Nat := 64
/-- font_option.go 14. -/
def underline : Nat := 4

/-- `cacheContentText` (cache_content_text.go 23-45).  `isCell`: `contentType`.  `inColour`: `txtColorMode` is `"color"`. -/
structure TextItem where
  rectangle : Option Units.Rect
  colour : Option TextColour
  grayFill : ℚ
  inColour : Bool
  font : Nat
  fontSize : ℚ
  fontStyle : Nat
  charSpacing : ℚ
  setXCount : Nat
  x : ℚ
  y : ℚ
  pageHeight : ℚ
  isCell : Bool
  opt : CellOption
  lineWidth : ℚ
  text : List Nat
  cellWidth : ℚ := 0
  cellHeight : ℚ := 0
  textWidth : ℚ := 0
  isPlaceHolder : Bool := false
  deriving DecidableEq, Repr

/-- `CropOptions` (gopdf.go 118-123). -/
structure Crop where
  x : ℚ
  y : ℚ
  width : ℚ
  height : ℚ
  deriving DecidableEq, Repr

/-- `cacheContentImage` (cache_content_image.go 8-21). -/
structure ImageItem where
  withMask : Bool
  maskAngle : ℚ
  imageAngle : ℚ
  verticalFlip : Bool
  horizontalFlip : Bool
  index : Nat
  x : ℚ
  y : ℚ
  pageHeight : ℚ
  rect : Units.Rect
  crop : Option Crop
  ext : List Nat
  deriving DecidableEq, Repr

/-- The items of a content object (`listCacheContent.caches`).  A page height comes first where the item keeps one. -/
inductive Item where
  | text (t : TextItem)
  | line (h x1 y1 x2 y2 : ℚ) (ext : List Nat)
  | rectangle (h x y width height : ℚ) (style : PaintKind) (ext : List Nat)
  | polygon (h : ℚ) (points : List (ℚ × ℚ)) (style : PaintKind) (ext : List Nat)
  | oval (h x1 y1 x2 y2 : ℚ)
  | curve (h : ℚ) (p0 p1 p2 p3 : ℚ × ℚ) (style : PaintKind)
  | clipPolygon (h : ℚ) (points : List (ℚ × ℚ))
  | image (i : ImageItem)
  | template (h scaleX scaleY tX tY : ℚ) (name : List UInt8)
  | rotate (h angle x y : ℚ)
  | rotateReset
  | save
  | restore
  | gray (stroke : Bool) (v : ℚ)
  | rgb (stroke : Bool) (r g b : Nat)
  | cmyk (stroke : Bool) (c m y k : Nat)
  | lineWidth (w : ℚ)
  /-- of `SetLineType` -/
  | lineType (dashed dotted : Bool)
  /-- of `SetCustomLineType` -/
  | dash (a : List ℚ) (phase : ℚ)
  | colourSpace (n : Nat)
  deriving DecidableEq, Repr

/-! ### Operators written for an item -/

/-- `convertTypoUnit` (cache_content_text.go 78-81), and the `Get...Px` functions (subset_font_obj.go 326-353). -/
def typo (v : Int) (f : Font) (size : ℚ) : ℚ := (v : ℚ) * 1000 / f.run.unitsPerEm * size / 1000

def px (v : Int) (f : Font) (size : ℚ) : ℚ := (v : ℚ) / f.run.unitsPerEm * size

/-- `calX` (cache_content_text.go 167-182). -/
def calX (t : TextItem) : ℚ :=
  if t.isCell then
    if has t.opt.align right then t.x + t.cellWidth - t.textWidth
    else if has t.opt.align center then t.x + t.cellWidth / 2 - t.textWidth / 2
    else t.x
  else t.x

/-- `calY` (cache_content_text.go 147-165). -/
def calY (e : Env) (t : TextItem) : ℚ :=
  let f := e.fonts t.font
  if t.isCell then
    if has t.opt.align bottom then t.pageHeight - t.y - t.cellHeight - typo f.typoDescender f t.fontSize
    else if has t.opt.align middle then
      t.pageHeight - t.y - t.cellHeight / 2 - (typo f.typoDescender f t.fontSize + typo f.typoAscender f t.fontSize) / 2
    else t.pageHeight - t.y - typo f.typoAscender f t.fontSize
  else t.pageHeight - t.y

/-- `nonSpaceBounds` (cache_content_text.go 99-110): byte positions of the first and last rune that is not a space. -/
def nonSpaceBounds (text : List Nat) : Int × Int :=
  (TextRun.withIndex 0 text).foldl
    (fun b p => if p.2 ≠ 32 then (if b.1 < 0 then (p.1 : Int) else b.1, (p.1 : Int)) else b) (-1, -1)

/-- `interiorSpaceCount` (cache_content_text.go 115-127). -/
def interiorSpaceCount (text : List Nat) : Nat :=
  let b := nonSpaceBounds text
  if b.1 < 0 then 0
  else (TextRun.withIndex 0 text).countP fun p => p.2 = 32 ∧ (p.1 : Int) > b.1 ∧ (p.1 : Int) < b.2

/-- `math.Round`: half away from zero. -/
def roundAway (q : ℚ) : Int := if q < 0 then -⌊-q + 1 / 2⌋ else ⌊q + 1 / 2⌋

/-- `justifyAdjustment` (cache_content_text.go 89-95). -/
def justifyAdjustment (slack : ℚ) (gaps : Nat) (fontSize : ℚ) : Int :=
  if gaps = 0 ∨ slack ≤ 0 ∨ fontSize ≤ 0 then 0 else roundAway (-(slack / gaps * 1000 / fontSize))

/-- cache_content_text.go 230-243: the justification numbers of `write`. -/
def justOf (t : TextItem) : TextRun.Just :=
  if t.isCell && has t.opt.align justify && t.rectangle.isSome then
    let a := justifyAdjustment (t.cellWidth - t.textWidth) (interiorSpaceCount t.text) t.fontSize
    if a = 0 then none else some (a, (nonSpaceBounds t.text).1, (nonSpaceBounds t.text).2)
  else none

/-- An element of the TJ array. -/
def tjItem : TextRun.TJ → TextShow.Item
  | .glyph g => .code g
  | .adj n => .adjust n

/-- The TJ array (cache_content_text.go 246-274). -/
def tjOf (e : Env) (t : TextItem) : List TextShow.Item :=
  (TextRun.tjLoop (e.fonts t.font).run (justOf t) (0, 0) (TextRun.withIndex 0 t.text)).map tjItem

/-- `underline` (cache_content_text.go 349-387). -/
def underlineOps (e : Env) (t : TextItem) : List Op :=
  let f := e.fonts t.font
  let coefLine := if t.opt.coefLineHeight ≠ 0 then t.opt.coefLineHeight else 1
  let coefPos := if t.opt.coefUnderlinePosition ≠ 0 then t.opt.coefUnderlinePosition else 1
  let coefThick := if t.opt.coefUnderlineThickness ≠ 0 then t.opt.coefUnderlineThickness else 1
  let asc := px f.ascender f t.fontSize
  let desc := - px f.descender f t.fontSize
  let leading := (asc + desc - coefLine * t.fontSize) / 2
  [.re t.x (t.pageHeight - t.y + px f.underlinePosition f t.fontSize * coefPos - (asc + leading)) t.cellWidth
    (px f.underlineThickness f t.fontSize * coefThick), .paint false .fill]

/-- One border line (cache_content_text.go 307, 318, 329, 340). -/
def borderLine (x1 y1 x2 y2 : ℚ) : List Op := [.m (x1, y1), .l (x2, y2), .paint true .stroke]

/-- `drawBorder` (cache_content_text.go 296-347). -/
def borderOps (t : TextItem) : List Op :=
  let off := t.lineWidth / 2
  let y0 := t.pageHeight - t.y
  (if has t.opt.border top then borderLine (t.x - off) y0 (t.x + t.cellWidth + off) y0 else []) ++
  (if has t.opt.border left then borderLine t.x y0 t.x (y0 - t.cellHeight) else []) ++
  (if has t.opt.border right then
    borderLine (t.x + t.cellWidth) y0 (t.x + t.cellWidth) (y0 - t.cellHeight) else []) ++
  (if has t.opt.border bottom then
    borderLine (t.x - off) (y0 - t.cellHeight) (t.x + t.cellWidth + off) (y0 - t.cellHeight) else [])

/-- The colour operator of `write` (cache_content_text.go 223-225). -/
def colourOps (t : TextItem) : List Op :=
  if t.inColour then (match t.colour with | some c => [Op.fillColour c.colour] | none => []) else []

/-- `cacheContentText.write` (cache_content_text.go 192-294).  A character without a glyph is skipped; no other error
is possible. A text colour is always present when the mode is `"color"` (gopdf.go 1867-1886). -/
def textOps (e : Env) (t : TextItem) : List Op :=
  (if t.opt.ext ≠ [] then [Op.q] else []) ++ t.opt.ext.map Op.gs ++
  [.BT, .Td (calX t) (calY e t), .Tf t.font t.fontSize, .Tc t.charSpacing] ++
  colourOps t ++
  [.TJ (tjOf e t), .ET] ++
  (if has t.fontStyle underline then underlineOps e t else []) ++ borderOps t ++
  (if t.opt.ext ≠ [] then [Op.Q] else [])

/-- `computeRotateTransformationMatrix` (cache_content_rotate.go 34-42). -/
def rotateOps (e : Env) (x y angle h : ℚ) : List Op :=
  [.cm ⟨e.cos angle, e.sin angle, -e.sin angle, e.cos angle, x, h - y⟩, .cm ⟨1, 0, 0, 1, -x, -(h - y)⟩]

/-- The size the rotation centre is computed from (`openImageRotateTrMt`, cache_content_image.go 23-46). -/
def ImageItem.cropSize (i : ImageItem) : ℚ × ℚ := match i.crop with
  | some c => (c.width, c.height)
  | none => (i.rect.w, i.rect.h)

/-- The flip (cache_content_image.go 86-98). -/
def ImageItem.flipMat (i : ImageItem) : Mat :=
  ⟨if i.horizontalFlip then -1 else 1, 0, 0, if i.verticalFlip then -1 else 1, 0, 0⟩

/-- The clipping rectangle (cache_content_image.go 100-114): x, y, width, height. -/
def ImageItem.clipRect (i : ImageItem) : Option (ℚ × ℚ × ℚ × ℚ) := i.crop.map fun c =>
  let y := i.pageHeight - i.y - c.height
  (if i.horizontalFlip then -i.x - c.width else i.x, if i.verticalFlip then -y - c.height else y, c.width, c.height)

/-- The position (cache_content_image.go 100-135). -/
def ImageItem.place (i : ImageItem) : Mat :=
  let x := match i.crop with | some c => i.x - c.x | none => i.x
  let y := match i.crop with
    | some c => i.pageHeight - i.y + (c.y - i.rect.h)
    | none => i.pageHeight - i.y - i.rect.h
  ⟨i.rect.w, 0, 0, i.rect.h, if i.horizontalFlip then -x - i.rect.w else x, if i.verticalFlip then -y - i.rect.h else y⟩

/-- Whether the mask variant writes a rotation (`computeMaskImageRotateTrMt`, cache_content_image.go 54-66). -/
def ImageItem.maskRotates (i : ImageItem) : Bool := i.withMask && i.maskAngle + i.imageAngle != 0

/-- cache_content_image.go 80-144: between opening and closing the rotation. -/
def imageInner (e : Env) (i : ImageItem) : List Op :=
  [.q] ++ (i.ext.map Op.gs ++ ((if i.horizontalFlip || i.verticalFlip then [.cm i.flipMat] else []) ++
    ((match i.clipRect with | some (x, y, w, h) => [.re x y w h, .W true, .n] | none => []) ++
    ([.q] ++ ((if i.maskRotates then
        rotateOps e (i.x + i.rect.w / 2) (i.y + i.rect.h / 2) (i.maskAngle + i.imageAngle) i.pageHeight else []) ++
      [.cm i.place, .image (i.index + 1)]) ++ [.Q])))) ++ [.Q]

/-- `cacheContentImage.write` (cache_content_image.go 68-151). -/
def imageOps (e : Env) (i : ImageItem) : List Op :=
  if i.withMask then imageInner e i
  else [.q] ++ (rotateOps e (i.x + i.cropSize.1 / 2) (i.y + i.cropSize.2 / 2) i.imageAngle i.pageHeight ++
    imageInner e i) ++ [.Q]

/-- Points of a polygon: `m` for the first, `l` for the others (cache_content_polygon.go 22-30, cache_content_clip.go
14-21). -/
def pathOps (h : ℚ) : List (ℚ × ℚ) → List Op
  | [] => []
  | p :: rest => .m (p.1, h - p.2) :: rest.map fun p => .l (p.1, h - p.2)

/-- The `write` methods of the items. -/
def ops (e : Env) : Item → List Op
  | .text t => textOps e t
  /- cache_content_line.go 17-25 -/
  | .line h x1 y1 x2 y2 ext =>
    [.q] ++ ext.map Op.gs ++ [.m (x1, h - y1), .l (x2, h - y2), .paint false .stroke, .Q]
  /- cache_content_rectangle.go 34-50 -/
  | .rectangle h x y wd ht st ext => [.q] ++ ext.map Op.gs ++ [.re x (h - y) wd ht, .paint false st, .Q]
  /- cache_content_polygon.go 15-42: `f`, `b`, `s` -/
  | .polygon h pts st ext => [.q] ++ ext.map Op.gs ++ pathOps h pts ++ [.paint (st ≠ .fill) st, .Q]
  /- cache_content_oval.go 16-49 -/
  | .oval h x1 y1 x2 y2 =>
    let cp : ℚ := 55228 / 100000
    let v1 := (x1 + (x2 - x1) / 2, h - y2)
    let v2 := (x2, h - (y1 + (y2 - y1) / 2))
    let v3 := (x1 + (x2 - x1) / 2, h - y1)
    let v4 := (x1, h - (y1 + (y2 - y1) / 2))
    let dx := (x2 - x1) / 2 * cp
    let dy := (y2 - y1) / 2 * cp
    [.m v1, .c (v1.1 + dx, v1.2) (v2.1, v2.2 - dy) v2, .c (v2.1, v2.2 + dy) (v3.1 + dx, v3.2) v3,
     .c (v3.1 - dx, v3.2) (v4.1, v4.2 + dy) v4, .c (v4.1, v4.2 - dy) (v1.1 - dx, v1.2) v1, .paint false .stroke]
  /- cache_contnent_curve.go 21-48 -/
  | .curve h p0 p1 p2 p3 st =>
    [.m (p0.1, h - p0.2), .c (p1.1, h - p1.2) (p2.1, h - p2.2) (p3.1, h - p3.2), .paint false st]
  /- cache_content_clip.go 13-24 -/
  | .clipPolygon h pts => pathOps h pts ++ [.h, .W false, .n]
  | .image i => imageOps e i
  /- cache_content_imported_object.go 17-21 -/
  | .template h sx sy tx ty name =>
    [.q, .J 0, .w 1, .j 0, .strokeColour (.gray 0), .fillColour (.gray 0), .q, .cm ⟨sx, 0, 0, sy, tx, ty + h⟩,
     .template name, .Q, .Q]
  /- cache_content_rotate.go 15-32 -/
  | .rotate h a x y => .q :: rotateOps e x y a h
  | .rotateReset => [.Q]
  /- cache_content_graphics_state.go -/
  | .save => [.q]
  | .restore => [.Q]
  /- cache_content_gray.go 16-19, cache_contact_color_rgb.go 17-20, cache_content_color_cmyk.go 17-20 -/
  | .gray st v => [if st then .strokeColour (.gray v) else .fillColour (.gray v)]
  | .rgb st r g b => [if st then .strokeColour (rgbColour r g b) else .fillColour (rgbColour r g b)]
  | .cmyk st c m y k => [if st then .strokeColour (cmykColour c m y k) else .fillColour (cmykColour c m y k)]
  /- cache_content_line_width.go 12-15, cache_content_line_type.go 12-22, cache_content_custom_line_type.go 13-16 -/
  | .lineWidth x => [.w x]
  | .lineType dashed dotted => [if dashed then .d [5] 2 else if dotted then .d [2, 3] 11 else .d [] 0]
  | .dash a ph => [.d a ph]
  /- cache_color_space.go 12-15 -/
  | .colourSpace n => [.strokeColour (.named (n + 1))]

/-- `listCacheContent.write` (list_cache_content.go 62-69). -/
def pageOps (e : Env) (items : List Item) : List Op := items.flatMap (ops e)

/-! ### The calls -/

/-- `Current` (current.go 4-56) as far as drawing uses it.  `font` is `FontFontCount`.  `ext`: the number of the current
transparency's graphics state dictionary. -/
structure Cur where
  x : ℚ
  y : ℚ
  setXCount : Nat := 0
  font : Nat := 0
  fontSize : ℚ := 0
  fontStyle : Nat := 0
  charSpacing : ℚ := 0
  colour : Option TextColour := none
  grayFill : ℚ := 0
  inColour : Bool := false
  lineWidth : ℚ := 1
  ext : Option Nat := none
  pageHeight : ℚ
  deriving DecidableEq, Repr

structure St where
  cur : Cur
  /-- the content of every page -/
  pages : List (List Item)
  /-- the current page -/
  page : Nat
  /-- margins, in points -/
  marginLeft : ℚ
  marginTop : ℚ
  deriving DecidableEq, Repr

/-- `isSame` (cache_content_text.go 47-68). -/
def isSame (c cache : TextItem) : Bool :=
  c.rectangle.isNone && (c.colour == cache.colour) && c.grayFill == cache.grayFill && c.font == cache.font &&
  c.fontSize == cache.fontSize && c.fontStyle == cache.fontStyle && c.charSpacing == cache.charSpacing &&
  c.setXCount == cache.setXCount && c.y == cache.y && c.isPlaceHolder == cache.isPlaceHolder

/-- `int(float64)`: truncation toward zero. -/
def truncQ (q : ℚ) : Int := if q < 0 then -⌊-q⌋ else ⌊q⌋

/-- `spaceWidthPdfUnit` (cache_content_text.go 428-430).  A font size of 0 would divide by zero in Go (giving an infinity
whose conversion is unspecified); here the quotient is 0. -/
def spaceWidth (f : Font) (fontSize charSpacing : ℚ) : Int :=
  TextRun.toPdfUnit (truncQ ((f.run.unitsPerEm : ℚ) / fontSize * charSpacing)) f.run.unitsPerEm

/-- `createContent` (cache_content_text.go 401-450): cell width, cell height, text width.  `none`: a panic in the font
tables. -/
def createContent (f : Font) (text : List Nat) (fontSize charSpacing : ℚ) (rect : Option Units.Rect) :
    Option (ℚ × ℚ × ℚ) :=
  match TextRun.sumWidth f.run (spaceWidth f fontSize charSpacing) (0, 0) (TextRun.withIndex 0 text) with
  | .error _ => none
  | .ok s =>
    let tw := (s : ℚ) * (fontSize / 1000)
    match rect with
    | none => some (tw, typo f.typoAscender f fontSize - typo f.typoDescender f fontSize, tw)
    | some r => some (r.w, r.h, tw)

/-- The item the text is joined to, if any (list_cache_content.go 26-37). -/
def joinTarget (items : List Item) (cache : TextItem) : Option TextItem := match items.getLast? with
  | some (.text c) => if isSame c cache then some c else none
  | _ => none

/-- Append text to an item and measure again (list_cache_content.go 44-51, cache_content_text.go 389-399). -/
def extend (e : Env) (c : TextItem) (text : List Nat) : Option TextItem :=
  (createContent (e.fonts c.font) (c.text ++ text) c.fontSize c.charSpacing c.rectangle).map fun r =>
    { c with text := c.text ++ text, cellWidth := r.1, cellHeight := r.2.1, textWidth := r.2.2 }

/-- `appendContentText` (list_cache_content.go 21-60): the new items and cursor. -/
def appendContentText (e : Env) (items : List Item) (cache : TextItem) (text : List Nat) :
    Option (List Item × ℚ × ℚ) :=
  let j := joinTarget items cache
  (extend e (j.getD cache) text).map fun c =>
    ((if j.isSome then items.dropLast else items) ++ [.text c],
      if c.opt.float == 0 || has c.opt.float right || !c.isCell then c.x + c.cellWidth else cache.x,
      if has c.opt.float bottom then c.y + c.cellHeight else cache.y)

/-- The item built by `AppendStreamText` (content_obj.go 150-187) and `AppendStreamSubsetFont` (195-232). -/
def newText (cur : Cur) (isCell : Bool) (rect : Option Units.Rect) (opt : CellOption) : TextItem :=
  { rectangle := rect, colour := cur.colour, grayFill := cur.grayFill, inColour := cur.inColour,
    font := cur.font + 1, fontSize := cur.fontSize, fontStyle := cur.fontStyle, charSpacing := cur.charSpacing,
    setXCount := cur.setXCount, x := cur.x, y := cur.y, pageHeight := cur.pageHeight, isCell := isCell, opt := opt,
    lineWidth := cur.lineWidth, text := [] }

/-- `fixRange10` (content_obj.go 479-487). -/
def fixRange10 (v : ℚ) : ℚ := if v < 0 then 0 else if v > 1 then 1 else v

/-- The calls of the library that draw or change what drawing does, with their arguments as the user gives them (in the
document's unit), except: fonts are given by their number (`SetFont` looks the family up), images by the number of their
object, templates by the values the importer returns, transparencies by the number of their dictionary (`none`: opaque). -/
inductive Call where
  | addPage (height : ℚ)
  | setPage (n : Nat)
  | setX (x : ℚ) | setY (y : ℚ) | setXY (x y : ℚ) | br (h : ℚ)
  | setFont (font : Nat) (style : Nat) (size : ℚ)
  | setFontSize (s : ℚ)
  | setCharSpacing (s : ℚ)
  | setTextColour (c : TextColour)
  | setTransparency (n : Option Nat)
  | setGrayFill (v : ℚ) | setGrayStroke (v : ℚ)
  | setColour (stroke : Bool) (r g b : Nat) | setColourCMYK (stroke : Bool) (c m y k : Nat)
  | setLineWidth (w : ℚ)
  | setLineType (dashed dotted : Bool) | setCustomLineType (a : List ℚ) (phase : ℚ)
  | setColourSpace (n : Nat)
  | text (t : List Nat)
  | cell (rect : Option Units.Rect) (t : List Nat)
  | cellWithOption (rect : Option Units.Rect) (t : List Nat) (opt : CellOption) (trans : Option (Option Nat))
  | line (x1 y1 x2 y2 : ℚ)
  | rectLower (x y w h : ℚ) | rectUpper (x y w h : ℚ)
  | rectLowerOpt (x y w h : ℚ) (style : PaintKind) (trans : Option (Option Nat))
  | rectUpperOpt (x y w h : ℚ) (style : PaintKind) (trans : Option (Option Nat))
  | oval (x1 y1 x2 y2 : ℚ)
  | curve (p0 p1 p2 p3 : ℚ × ℚ) (style : PaintKind)
  | polygon (points : List (ℚ × ℚ)) (style : PaintKind)
  | clipPolygon (points : List (ℚ × ℚ))
  | save | restore
  | rotate (angle x y : ℚ) | rotateReset
  | image (i : ImageItem)
  | template (scaleX scaleY tX tY : ℚ) (name : List UInt8)
  deriving DecidableEq, Repr

/-- `getContent().listCache.append` (list_cache_content.go 17-19). -/
def St.add (s : St) (i : Item) : St := { s with pages := s.pages.modify s.page (· ++ [i]) }

/-- `Rect.UnitsToPoints(gp.config.Unit)` on a possibly nil rectangle (rect.go 27-41). -/
def rectPoints (e : Env) (r : Option Units.Rect) : Option Units.Rect := r.map (·.toPointsT e.cfg.unit)

/-- `getCachedTransparency` (gopdf.go 2416-2429): the call's own transparency if it has one, else the current one. -/
def transOf (s : St) (t : Option (Option Nat)) : List Nat := (t.getD s.cur.ext).toList

/-- Text and cells: append, then move the cursor. -/
def St.addText (e : Env) (s : St) (t : TextItem) (text : List Nat) : Option St :=
  match appendContentText e (s.pages.getD s.page []) t text with
  | none => none
  | some (items, x, y) =>
    some { s with pages := s.pages.set s.page items, cur := { s.cur with x := x, y := y } }

/-- One call. -/
def step (e : Env) (s : St) : Call → Option St
  /- gopdf.go 806-849 -/
  | .addPage h => some
    { s with pages := s.pages ++ [[]], page := s.pages.length
             cur := { s.cur with x := s.marginLeft, y := s.marginTop, pageHeight := h } }
  /- gopdf.go 2481-2495: an unknown page is an error that changes nothing -/
  | .setPage n => some (if n < s.pages.length then { s with page := n } else s)
  /- gopdf.go 364-368, 467-470, 478-485, 344-348 -/
  | .setX x => some { s with cur := { s.cur with x := toPoints e.cfg x, setXCount := s.cur.setXCount + 1 } }
  | .setY y => some { s with cur := { s.cur with y := toPoints e.cfg y } }
  | .setXY x y => some
    { s with cur := { s.cur with x := toPoints e.cfg x, y := toPoints e.cfg y, setXCount := s.cur.setXCount + 1 } }
  | .br h => some { s with cur := { s.cur with y := s.cur.y + toPoints e.cfg h, x := s.marginLeft } }
  /- gopdf.go 955-986, 997-1008 -/
  | .setFont f st size => some { s with cur := { s.cur with font := f, fontStyle := st, fontSize := size } }
  | .setFontSize v => some { s with cur := { s.cur with fontSize := v } }
  | .setCharSpacing v => some { s with cur := { s.cur with charSpacing := toPoints e.cfg v } }
  /- gopdf.go 1867-1886 -/
  | .setTextColour c => some { s with cur := { s.cur with colour := some c, inColour := true } }
  /- gopdf.go 2401-2414 -/
  | .setTransparency n => some { s with cur := { s.cur with ext := n } }
  /- gopdf.go 351-361, content_obj.go 323-338 -/
  | .setGrayFill v => some
    ({ s with cur := { s.cur with inColour := false, grayFill := v } }.add (.gray false (fixRange10 v)))
  | .setGrayStroke v => some (s.add (.gray true (fixRange10 v)))
  /- gopdf.go 1889-1906 -/
  | .setColour st r g b => some (s.add (.rgb st r g b))
  | .setColourCMYK st c m y k => some (s.add (.cmyk st c m y k))
  /- gopdf.go 160-164 -/
  | .setLineWidth w => some
    ({ s with cur := { s.cur with lineWidth := toPoints e.cfg w } }.add (.lineWidth (toPoints e.cfg w)))
  /- gopdf.go 198-213, cache_content_line_type.go 12-22 -/
  | .setLineType a b => some (s.add (.lineType a b))
  | .setCustomLineType a ph => some (s.add (.dash (a.map (toPoints e.cfg)) (toPoints e.cfg ph)))
  /- gopdf.go 2497-2522 -/
  | .setColourSpace n => some (s.add (.colourSpace n))
  /- gopdf.go 1105-1118: the option carries the transparency but no dictionary number -/
  | .text t => s.addText e (newText s.cur false none {}) t
  /- gopdf.go 1145-1163 -/
  | .cell r t => s.addText e (newText s.cur true (rectPoints e r) { align := 8 ||| 4, float := 2 }) t
  /- gopdf.go 1121-1141 -/
  | .cellWithOption r t opt tr =>
    s.addText e (newText s.cur true (rectPoints e r) { opt with ext := opt.ext ++ transOf s tr }) t
  /- gopdf.go 224-235 -/
  | .line x1 y1 x2 y2 => some (s.add (.line s.cur.pageHeight (toPoints e.cfg x1) (toPoints e.cfg y1)
      (toPoints e.cfg x2) (toPoints e.cfg y2) s.cur.ext.toList))
  /- gopdf.go 238-263 -/
  | .rectLower x y w h => some (s.add (.rectangle s.cur.pageHeight (toPoints e.cfg x) (toPoints e.cfg y)
      (toPoints e.cfg w) (toPoints e.cfg h) .stroke []))
  | .rectUpper x y w h => some (s.add (.rectangle s.cur.pageHeight (toPoints e.cfg x)
      (toPoints e.cfg y + toPoints e.cfg h) (toPoints e.cfg w) (toPoints e.cfg h) .stroke []))
  /- gopdf.go 270-335 -/
  | .rectLowerOpt x y w h st tr => some (s.add (.rectangle s.cur.pageHeight (toPoints e.cfg x) (toPoints e.cfg y)
      (toPoints e.cfg w) (toPoints e.cfg h) st (transOf s tr)))
  | .rectUpperOpt x y w h st tr => some (s.add (.rectangle s.cur.pageHeight (toPoints e.cfg x)
      (toPoints e.cfg y + toPoints e.cfg h) (toPoints e.cfg w) (toPoints e.cfg h) st (transOf s tr)))
  /- gopdf.go 338-341 -/
  | .oval x1 y1 x2 y2 => some (s.add (.oval s.cur.pageHeight (toPoints e.cfg x1) (toPoints e.cfg y1)
      (toPoints e.cfg x2) (toPoints e.cfg y2)))
  /- gopdf.go 1945-1948 -/
  | .curve p0 p1 p2 p3 st =>
    let f := fun p : ℚ × ℚ => (toPoints e.cfg p.1, toPoints e.cfg p.2)
    some (s.add (.curve s.cur.pageHeight (f p0) (f p1) (f p2) (f p3) st))
  /- gopdf.go 1993-2025 -/
  | .polygon pts st => some (s.add (.polygon s.cur.pageHeight
      (pts.map fun p => (toPoints e.cfg p.1, toPoints e.cfg p.2)) st s.cur.ext.toList))
  | .clipPolygon pts => some (s.add (.clipPolygon s.cur.pageHeight
      (pts.map fun p => (toPoints e.cfg p.1, toPoints e.cfg p.2))))
  /- gopdf.go 2029-2037 -/
  | .save => some (s.add .save)
  | .restore => some (s.add .restore)
  /- gopdf.go 1971-1979 -/
  | .rotate a x y => some (s.add (.rotate s.cur.pageHeight a (toPoints e.cfg x) (toPoints e.cfg y)))
  | .rotateReset => some (s.add .rotateReset)
  /- content_obj.go 382-414: `i` carries the converted options; the page height is the current one -/
  | .image i => some (s.add (.image { i with pageHeight := s.cur.pageHeight }))
  /- gopdf.go 1602-1607 -/
  | .template sx sy tx ty name => some (s.add (.template s.cur.pageHeight sx sy tx ty name))

/-- A sequence of calls; `none`: one of them panicked. -/
def steps (e : Env) : St → List Call → Option St
  | s, [] => some s
  | s, c :: rest => (step e s c).bind fun s' => steps e s' rest

/-- A document with its first page. -/
def start (height marginLeft marginTop : ℚ) : St :=
  { cur := { x := marginLeft, y := marginTop, pageHeight := height }, pages := [[]], page := 0,
    marginLeft := marginLeft, marginTop := marginTop }

end Verif.Content
