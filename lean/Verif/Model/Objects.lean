import Verif.Model.Compile
import Verif.Model.ContentBytes
import Verif.Model.Doc
import Verif.Model.Escape
import Verif.Model.Streams
/-
The bytes of every object: the `write` methods of the types in `*_obj.go`, and the file made of them.

Simplifications (all definitions of this file):
* what the document state machine of Model/Doc.lean leaves out (sizes, names, positions, stream data) is given by an
  environment, by object index or by the key used there;
* numbers are rationals, as in Model/ContentBytes.lean;
* an external link has a non-empty address (annot_obj.go 22: with an empty one it is written as a link to the anchor with
  the empty name, that is as an internal link);
* the title and position of a bookmark are those AddOutline gives; nested bookmarks are in Model/OutlineTree.lean;
* deflation is a function given as a parameter.
-/
namespace Verif.Objects
open Doc
open Content (fixed)

/-- Colour spaces of an image without palette (image_obj_parse.go 190-200, 257-267). -/
inductive Space where
  | gray
  | rgb
  | cmyk
  deriving DecidableEq, Repr

def Space.bytes : Space → Bytes
  | .gray => lit "DeviceGray"
  | .rgb => lit "DeviceRGB"
  | .cmyk => lit "DeviceCMYK"

/-- img_info.go: what is known of an image.  `jpeg`: the filter is `DCTDecode` and there are no decode parameters
(image_obj_parse.go 201-205), otherwise `FlateDecode` and the parameters of lines 386-390. -/
structure Look where
  w : Nat
  h : Nat
  bpc : Nat
  space : Space
  jpeg : Bool
  colors : Nat
  pal : Bytes
  trns : Bytes
  data : Bytes
  smask : Bytes

/-- The integers of a font descriptor (subfont_descriptor_obj.go 27-41). -/
structure Desc where
  ascent : Int
  capHeight : Int
  descent : Int
  flags : Int
  bbox : Int × Int × Int × Int
  italicAngle : Int
  xHeight : Int

/-- Components of a separation colour (color_space_obj.go 37-50). -/
inductive Ink where
  | rgb (r g b : Nat)
  | cmyk (c m y k : Nat)

/-- Rectangles: left, top, right, bottom as written. -/
structure Box where
  a : ℚ
  b : ℚ
  c : ℚ
  d : ℚ

/-- What Model/Doc.lean does not know. -/
structure Env where
  /-- `config.PageSize` -/
  size : ℚ × ℚ
  /-- size and trim box of the page at an index, if set -/
  pageSize : Nat → Option (ℚ × ℚ)
  trimBox : Nat → Option Box
  /-- family name by key -/
  family : Nat → Bytes
  /-- by index of the font object -/
  desc : Nat → Desc
  widths : Nat → List (Nat × Nat)
  cmap : Nat → Bytes
  fontFile : Nat → Bytes × Nat
  /-- by index of the image object -/
  look : Nat → Look
  /-- by index of the group object -/
  bbox : Nat → Box
  /-- rectangle and address by index of the annotation -/
  rect : Nat → Box
  url : Nat → Bytes
  /-- height of an anchor -/
  anchorY : Nat → ℚ
  /-- name by key, components by index -/
  csName : Nat → Bytes
  ink : Nat → Ink
  /-- title by key, height by index -/
  title : Nat → List Nat
  outlineY : Nat → ℚ
  imported : Nat → Bytes
  /-- names (with slash) and object numbers of imported templates -/
  templates : List (Bytes × Nat)
  /-- what entries draw -/
  render : List Entry → Bytes
  /-- compression of content streams, if not switched off -/
  deflate : Option (Bytes → Bytes)
  md5 : Bytes → Bytes
  /-- the encryption key, if protected -/
  key : Option Bytes
  o : Bytes
  u : Bytes
  p : Int
  info : Option Info.PdfInfo

/-- `%d 0 R`. -/
def ref (n : Nat) : Bytes := dec n ++ lit " 0 R"

/-- catalog_obj.go 22-32. -/
def catalog (outlines : Option Nat) : Bytes :=
  lit "<<\n" ++ (lit "  /Type /Catalog\n" ++ (lit "  /Pages 2 0 R\n" ++
    ((match outlines with
      | some n => lit "  /PageMode /UseOutlines\n" ++ (lit "  /Outlines " ++ (ref n ++ lit "\n"))
      | none => []) ++ lit ">>\n")))

/-- `%s %d 0 R ` repeated (gopdf.go 2257, 2262). -/
def refList (l : List Nat) : Bytes := l.flatMap fun n => lit " " ++ (ref n ++ lit " ")

/-- `%d 0 R ` repeated (page_obj.go 37). -/
def linkList (l : List Nat) : Bytes := l.flatMap fun n => ref n ++ lit " "

/-- pages_obj.go 20-31; `Kids` is built by gopdf.go 2257. -/
def pages (e : Env) (kids : List Nat) (count : Nat) : Bytes :=
  lit "<<\n" ++ (lit "  /Type /Pages\n" ++ (lit "  /MediaBox [ 0 0 " ++ (fixed 2 e.size.1 ++ (lit " " ++ (fixed 2 e.size.2 ++
    (lit " ]\n" ++ (lit "  /Count " ++ (dec count ++ (lit "\n" ++ (lit "  /Kids [ " ++ (refList kids ++ (lit " ]\n" ++
    lit ">>\n"))))))))))))

/-- page_obj.go 34-43. -/
def annots (links : List Nat) : Bytes :=
  if links = [] then [] else lit "  /Annots [" ++ (linkList links ++ lit "]\n")

/-- page_obj.go 55-57; `Contents` is built by gopdf.go 2262. -/
def contents (cs : List Nat) : Bytes :=
  if cs = [] then [] else lit "  /Contents " ++ (refList cs ++ lit "\n")

/-- page_obj.go 58-60. -/
def mediaBox : Option (ℚ × ℚ) → Bytes
  | some s => lit " /MediaBox [ 0 0 " ++ (fixed 2 s.1 ++ (lit " " ++ (fixed 2 s.2 ++ lit " ]\n")))
  | none => []

/-- page_obj.go 61-64. -/
def trim : Option Box → Bytes
  | some t => lit " /TrimBox [ " ++ (fixed 2 t.a ++ (lit " " ++ (fixed 2 t.b ++ (lit " " ++ (fixed 2 t.c ++ (lit " " ++
    (fixed 2 t.d ++ lit " ]\n")))))))
  | none => []

/-- page_obj.go 27-67; `ResourcesRelate` is `"%d 0 R"` (gopdf.go 827). -/
def page (e : Env) (i : Nat) (cs links : List Nat) (resources : Nat) : Bytes :=
  lit "<<\n" ++ (lit "  /Type /Page\n" ++ (lit "  /Parent 2 0 R\n" ++ (lit "  /Resources " ++ (ref resources ++ (lit "\n" ++
    (annots links ++ (contents cs ++ (mediaBox (e.pageSize i) ++ (trim (e.trimBox i) ++ lit ">>\n")))))))))

/-- outlines_obj.go 29-49. -/
def outlines (first last : Option Nat) (count : Nat) : Bytes :=
  lit "<<\n" ++ (lit "\t/Type /Outlines\n" ++ (lit "\t/Count " ++ (dec count ++ (lit "\n" ++
    ((match first with | some n => lit "\t/First " ++ (ref n ++ lit "\n") | none => []) ++
    ((match last with | some n => lit "\t/Last " ++ (ref n ++ lit "\n") | none => []) ++ lit ">>\n"))))))

/-- outlines_obj.go 147-166. -/
def outline (e : Env) (i title dest parent : Nat) (prev next : Option Nat) : Bytes :=
  lit "<<\n" ++ (lit "  /Parent " ++ (ref parent ++ (lit "\n" ++
    ((match prev with | some n => lit "  /Prev " ++ (ref n ++ lit "\n") | none => []) ++
    ((match next with | some n => lit "  /Next " ++ (ref n ++ lit "\n") | none => []) ++
    (lit "  /Dest [ " ++ (ref dest ++ (lit " /XYZ 90 " ++ (fixed 6 (e.outlineY i) ++ (lit " 0 ]\n" ++
    (lit "  /Title <FEFF" ++ (Info.encodeUtf8 (e.title title) ++ (lit ">\n" ++ lit ">>\n")))))))))))))

/-- One line of a resource category: `\t\t/F%d %d 0 R\n`. -/
def resource (p : String) (r : Nat × Nat) : Bytes :=
  lit "\t\t/" ++ (lit p ++ (dec r.1 ++ (lit " " ++ (ref r.2 ++ lit "\n"))))

/-- procset_obj.go 50-52; Go's order over the map is unspecified. -/
def templateLine (r : Bytes × Nat) : Bytes := lit "\t\t" ++ (r.1 ++ (lit " " ++ (ref r.2 ++ lit "\n")))

/-- procset_obj.go 25-73. -/
def procset (e : Env) (fonts : List RelFont) (css : List RelCS) (xobjs gss : List Nat) : Bytes :=
  lit "<<\n" ++ (lit "\t/ProcSet [/PDF /Text /ImageB /ImageC /ImageI]\n" ++
    (lit "\t/Font <<\n" ++ (fonts.flatMap (fun r => resource "F" (r.count + 1, r.index + 1)) ++ (lit "\t>>\n" ++
    (lit "\t/ColorSpace <<\n" ++ (css.flatMap (fun r => resource "CS" (r.count + 1, r.index + 1)) ++ (lit "\t>>\n" ++
    (lit "\t/XObject <<\n" ++ (xobjs.flatMap (fun i => resource "I" (i + 1, i + 1)) ++
      (e.templates.flatMap templateLine ++ (lit "\t>>\n" ++
    (lit "\t/ExtGState <<\n" ++ (gss.flatMap (fun i => resource "GS" (i + 1, i + 1)) ++ (lit "\t>>\n" ++
    lit ">>\n"))))))))))))))

/-- `CreateEmbeddedFontSubsetName` (strhelper.go 28-32). -/
def subsetName (name : Bytes) : Bytes := Escape.replaceByte 47 [43] (Escape.replaceByte 32 [43] name)

/-- subset_font_obj.go 38-49. -/
def font (e : Env) (family cid uni : Nat) : Bytes :=
  lit "<<\n" ++ (lit "/BaseFont /" ++ (subsetName (e.family family) ++ (lit "\n" ++ (lit "/DescendantFonts [" ++ (ref (cid + 1) ++
    (lit "]\n" ++ (lit "/Encoding /Identity-H\n" ++ (lit "/Subtype /Type0\n" ++ (lit "/ToUnicode " ++ (ref (uni + 1) ++
    (lit "\n" ++ (lit "/Type /Font\n" ++ lit ">>\n"))))))))))))

/-- One entry of `/W` (cid_font_obj.go 42-45). -/
def widthEntry (p : Nat × Nat) : Bytes := dec p.1 ++ (lit "[" ++ (dec p.2 ++ lit "]"))

/-- cid_font_obj.go 27-49. -/
def cidFont (e : Env) (family fontIdx desc : Nat) : Bytes :=
  lit "<<\n" ++ (lit "/BaseFont /" ++ (subsetName (e.family family) ++ (lit "\n" ++ (lit "/CIDSystemInfo\n" ++ (lit "<<\n" ++
    (lit "  /Ordering (Identity)\n" ++ (lit "  /Registry (Adobe)\n" ++ (lit "  /Supplement 0\n" ++ (lit ">>\n" ++
    (lit "/FontDescriptor " ++ (ref (desc + 1) ++ (lit "\n" ++ (lit "/Subtype /CIDFontType2\n" ++ (lit "/Type /Font\n" ++
    (lit "/W [" ++ ((e.widths fontIdx).flatMap widthEntry ++ (lit "]\n" ++ lit ">>\n")))))))))))))))))

/-- subfont_descriptor_obj.go 22-45. -/
def fontDesc (e : Env) (family fontIdx file : Nat) : Bytes :=
  let x := e.desc fontIdx
  lit "<<\n" ++ (lit "/Type /FontDescriptor\n" ++ (lit "/Ascent " ++ (decInt x.ascent ++ (lit "\n" ++ (lit "/CapHeight " ++
    (decInt x.capHeight ++ (lit "\n" ++ (lit "/Descent " ++ (decInt x.descent ++ (lit "\n" ++ (lit "/Flags " ++ (decInt x.flags ++
    (lit "\n" ++ (lit "/FontBBox [" ++ (decInt x.bbox.1 ++ (lit " " ++ (decInt x.bbox.2.1 ++ (lit " " ++ (decInt x.bbox.2.2.1 ++
    (lit " " ++ (decInt x.bbox.2.2.2 ++ (lit "]\n" ++ (lit "/FontFile2 " ++ (ref (file + 1) ++ (lit "\n" ++
    (lit "/FontName /" ++ (subsetName (e.family family) ++ (lit "\n" ++ (lit "/ItalicAngle " ++ (decInt x.italicAngle ++ (lit "\n" ++
    (lit "/StemV 0\n" ++ (lit "/XHeight " ++ (decInt x.xHeight ++ (lit "\n" ++ lit ">>\n")))))))))))))))))))))))))))))))))))

/-- The filter of an image (image_obj_parse.go 202, 388). -/
def Look.filter (l : Look) : Bytes := if l.jpeg then lit "DCTDecode" else lit "FlateDecode"

/-- The colour space of an image (image_obj_parse.go 92-101). -/
def colorSpaceProps (l : Look) (indexed : Bool) (rgb : Option Nat) (space : Space) : Bytes :=
  if indexed then
    lit "\t/ColorSpace [/Indexed /DeviceRGB " ++ (decInt (l.pal.length / 3 - 1) ++ (lit " " ++ (ref (rgb.getD 0 + 1) ++ lit "]\n")))
  else lit "\t/ColorSpace /" ++ (space.bytes ++ (lit "\n" ++
    (if l.space = .cmyk then lit "\t/Decode [1 0 1 0 1 0 1 0]\n" else [])))

/-- `writeBaseImgProps` (image_obj_parse.go 85-113). -/
def baseProps (l : Look) (indexed : Bool) (rgb : Option Nat) (space : Space) (bpc : Nat) : Bytes :=
  lit "<<\n" ++ (lit "\t/Type /XObject\n" ++ (lit "\t/Subtype /Image\n" ++ (lit "\t/Width " ++ (dec l.w ++ (lit "\n" ++
    (lit "\t/Height " ++ (dec l.h ++ (lit "\n" ++ (colorSpaceProps l indexed rgb space ++ (lit "\t/BitsPerComponent " ++
    (dec bpc ++ (lit "\n" ++ (lit "\t/Filter /" ++ (l.filter ++ lit "\n"))))))))))))))

/-- `writeMaskImgProps` (image_obj_parse.go 24-42). -/
def maskProps (l : Look) (indexed : Bool) (rgb : Option Nat) : Bytes :=
  baseProps l indexed rgb .gray l.bpc ++ (lit "\t/DecodeParms <<\n" ++ (lit "\t\t/Predictor 15\n" ++ (lit "\t\t/Colors 1\n" ++
    (lit "\t\t/BitsPerComponent 8\n" ++ (lit "\t\t/Columns " ++ (dec l.w ++ (lit "\n" ++ lit "\t>>\n")))))))

/-- The decode parameters of a PNG (image_obj_parse.go 390-394, 49-53). -/
def parms (colors bpc w : Nat) : Bytes :=
  lit "\t/DecodeParms <<" ++ (lit "/Predictor 15 /Colors  " ++ (dec colors ++ (lit " /BitsPerComponent " ++ (dec bpc ++
    (lit " /Columns " ++ (dec w ++ lit ">>\n"))))))

/-- The colour key (image_obj_parse.go 58-74). -/
def colourKey (trns : Bytes) : Bytes :=
  if trns = [] then [] else
    lit "\t/Mask [" ++ ((trns.flatMap fun t => lit "\t\t" ++ (dec t.toNat ++ (lit " " ++ (lit "\t\t" ++ (dec t.toNat ++ lit " "))))) ++
      lit "\t]\n")

/-- `writeImgProps` (image_obj_parse.go 43-83). -/
def imgProps (l : Look) (info : ImgInfo) (smask rgb : Option Nat) : Bytes :=
  baseProps l info.indexed rgb l.space l.bpc ++ ((if l.jpeg then [] else parms l.colors l.bpc l.w) ++
    (if info.split then [] else colourKey l.trns ++
      (if info.alpha then lit "\t/SMask " ++ (ref (smask.getD 0 + 1) ++ lit "\n") else [])))

/-- `ImageObj.write` (image_obj.go 41-86). -/
def image (e : Env) (i : Nat) (info : ImgInfo) (smask rgb : Option Nat) : Option Bytes :=
  let l := e.look i
  if info.isMask then Streams.image e.md5 e.key (i + 1) (maskProps l info.indexed rgb) l.smask
  else Streams.image e.md5 e.key (i + 1) (imgProps l info smask rgb) l.data

/-- The dictionary of a soft mask image: `createSMask` (image_obj.go 96-107) and `writeImgProps`. -/
def smaskProps (l : Look) : Bytes :=
  baseProps { l with space := .gray } false none .gray 8 ++ (lit "\t/DecodeParms <<" ++ (lit "/Predictor 15 /Colors 1 /BitsPerComponent 8 /Columns " ++
    (dec l.w ++ lit ">>\n")))

/-- The names of the blend modes (transparency.go 12-29), numbered in this order. -/
def blendNames : List String := ["Hue", "Color", "Normal", "Darken", "Screen", "Overlay", "Lighten", "Multiply", "Exclusion",
  "ColorBurn", "HardLight", "SoftLight", "Difference", "Saturation", "Luminosity", "ColorDodge"]

def blendName (n : Nat) : Bytes := lit (blendNames.getD n "Normal")

/-- ext_g_state_obj.go 79-104, with the alpha that `%.3F` prints. -/
def extGS : GKey → Bytes
  | .alpha a b => lit "<<\n" ++ (lit "\t/Type /ExtGState\n" ++ (lit "\t/ca " ++ (fixed 3 (a / 1000) ++ (lit "\n" ++ (lit "\t/CA " ++
      (fixed 3 (a / 1000) ++ (lit "\n" ++ (lit "\t/BM /" ++ (blendName b ++ (lit "\n" ++ lit ">>\n"))))))))))
  | .smask m => lit "<<\n" ++ (lit "\t/Type /ExtGState\n" ++ (lit "\t/SMask " ++ (ref (m + 1) ++ (lit "\n" ++ lit ">>\n"))))

/-- smask_obj.go 68-77. -/
def softMask (group : Nat) : Bytes :=
  lit "<<\n" ++ (lit "\t/Type /Mask\n" ++ (lit "\t/S /Luminosity\n" ++ (lit "\t/G " ++ (ref (group + 1) ++ (lit "\n" ++ lit ">>\n")))))

/-- transparency_xobject_group.go 67-73. -/
def groupProps (b : Box) : Bytes :=
  lit "<<\n" ++ (lit "\t/FormType 1\n" ++ (lit "\t/Subtype /Form\n" ++ (lit "\t/Type /XObject\n" ++ (lit "\t/Matrix [1 0 0 1 0 0]\n" ++
    (lit "\t/BBox [" ++ (fixed 3 b.a ++ (lit " " ++ (fixed 3 b.b ++ (lit " " ++ (fixed 3 b.c ++ (lit " " ++ (fixed 3 b.d ++
    (lit "]\n" ++ lit "\t/Group<</CS /DeviceGray /S /Transparency>>\n")))))))))))))

/-- The common start of a link (annot_obj.go 44, 54). -/
def linkStart (r : Box) : Bytes :=
  lit "<</Type /Annot /Subtype /Link /Rect [" ++ (fixed 2 r.a ++ (lit " " ++ (fixed 2 r.b ++ (lit " " ++ (fixed 2 r.c ++ (lit " " ++
    (fixed 2 r.d ++ lit "] /Border [0 0 0] ")))))))

/-- annot_obj.go 29-47. -/
def externalLink (e : Env) (i : Nat) : Option Bytes := do
  let url ← Streams.cipher e.md5 e.key (i + 1) (e.url i)
  pure (linkStart (e.rect i) ++ (lit "/A <</S /URI /URI (" ++ (Escape.escape url ++ lit ")>>>>\n")))

/-- annot_obj.go 49-57. -/
def internalLink (e : Env) (i : Nat) (anchor : Option (Option Nat × Nat)) : Bytes :=
  match anchor with
  | none => []
  | some a => linkStart (e.rect i) ++ (lit "/Dest [" ++ (ref (match a.1 with | none => 0 | some p => p + 1) ++ (lit " /XYZ 0 " ++
      (fixed 2 (e.anchorY a.2) ++ lit " null]>>\n"))))

/-- color_space_obj.go 23-35, 37-50. -/
def colorSpace (e : Env) (i name : Nat) : Bytes :=
  lit "[ /Separation /" ++ (e.csName name ++ (
    (match e.ink i with
    | .rgb r g b => lit " /DeviceRGB\n" ++ (lit "\t\t<< \n" ++ (lit "\t\t\t/FunctionType 2\n" ++ (lit "\t\t\t/Domain [0 1]\n" ++
        (lit "\t\t\t/C0 [0.0 0.0 0.0]\n" ++ (lit "\t\t\t/C1 [" ++ (fixed 3 (r / 255) ++ (lit " " ++ (fixed 3 (g / 255) ++ (lit " " ++
        fixed 3 (b / 255))))))))))
    | .cmyk c m y k => lit " /DeviceCMYK\n" ++ (lit "\t\t<< \n" ++ (lit "\t\t\t/FunctionType 2\n" ++ (lit "\t\t\t/Domain [0 1]\n" ++
        (lit "\t\t\t/C0 [0.0 0.0 0.0 0.0]\n" ++ (lit "\t\t\t/C1 [" ++ (fixed 3 (c / 100) ++ (lit " " ++ (fixed 3 (m / 100) ++ (lit " " ++
        (fixed 3 (y / 100) ++ (lit " " ++ fixed 3 (k / 100))))))))))))) ++
    (lit "]\n" ++ (lit "\t\t\t/N 1\n" ++ (lit "\t\t>>\n" ++ lit "]\n")))))

/-- encryption_obj.go 24-34. -/
def encryption (e : Env) : Bytes :=
  lit "<<\n" ++ (lit "/Filter /Standard\n" ++ (lit "/V 1\n" ++ (lit "/R 2\n" ++ (lit "/O (" ++ (Escape.escape e.o ++ (lit ")\n" ++
    (lit "/U (" ++ (Escape.escape e.u ++ (lit ")\n" ++ (lit "/P " ++ (decInt e.p ++ (lit "\n" ++ lit ">>\n"))))))))))))

/-- The data of a content stream (content_obj.go 26-44). -/
def contentData (e : Env) (es : List Entry) : Bytes := match e.deflate with
  | some z => z (e.render es)
  | none => e.render es

/-- The family of the font at an index: `PtrToSubsetFontObj` of its parts (gopdf.go 1779-1825). -/
def familyAt (d : Doc) (i : Nat) : Nat := match d.objs[i]? with
  | some (.font f _ _ _ _) => f
  | _ => 0

/-- Is this the image whose soft mask is the object at index `j`? (gopdf.go 703-709) -/
def ownsSMask (j : Nat) : Obj → Bool
  | .image _ _ (some k) _ => k = j
  | _ => false

/-- Is this the image whose palette is the object at index `j`? (gopdf.go 711-720) -/
def ownsPalette (j : Nat) : Obj → Bool
  | .image _ _ _ (some k) => k = j
  | _ => false

/-- Index of the image a soft mask or palette was made of. -/
def owner (d : Doc) (p : Obj → Bool) : Nat := (d.objs.findIdx? p).getD 0

/-- What the object at index `i` writes.  The parts of a font are added in the order map, file, descriptor, CID font, font
(gopdf.go 1779-1825). -/
def objBytes (e : Env) (d : Doc) (i : Nat) : Obj → Option Bytes
  | .catalog o => some (catalog o)
  | .pages kids count => some (pages e kids count)
  | .outlines f l c => some (outlines f l c)
  | .procset fs cs xs gs => some (procset e fs cs xs gs)
  | .page cs ls r => some (page e i cs ls r)
  | .content es => Streams.content e.md5 e.key (i + 1) e.deflate.isSome (contentData e es)
  | .unicodeMap => Streams.unicodeMap e.md5 e.key (i + 1) (e.cmap (i + 4))
  | .fontFile => Streams.fontFile e.md5 e.key (i + 1) (e.fontFile (i + 3)).1 (e.fontFile (i + 3)).2
  | .fontDesc file => some (fontDesc e (familyAt d (i + 2)) (i + 2) file)
  | .cidFont desc => some (cidFont e (familyAt d (i + 1)) (i + 1) desc)
  | .font f _ _ cid uni => some (font e f cid uni)
  | .image _ info s r => image e i info s r
  | .imageSMask => let l := e.look (owner d (ownsSMask i)); Streams.smask e.md5 e.key (i + 1) (smaskProps l) l.smask
  | .deviceRGB => Streams.deviceRGB e.md5 e.key (i + 1) (e.look (owner d (ownsPalette i))).pal
  | .extGS k => some (extGS k)
  | .softMask g => some (softMask g)
  | .group es => Streams.xobjectGroup e.md5 e.key (i + 1) (groupProps (e.bbox i)) (e.render es)
  | .annot none => externalLink e i
  | .annot (some a) => some (internalLink e i (assoc d.anchors a))
  | .colorSpace n _ => some (colorSpace e i n)
  | .outline t de p pr ne => some (outline e i t de p pr ne)
  | .imported => some (e.imported i)
  | .encryption => some (encryption e)

/-- The objects of a document as writers (an object whose `write` fails has written nothing here). -/
def progs (e : Env) (d : Doc) : List Compile.Prog :=
  d.objs.mapIdx fun i o => .chunk ((objBytes e d i o).getD [])

/-- The trailer (gopdf.go 2303-2309). -/
def trailerOf (e : Env) (d : Doc) : Compile.Trailer := { encrypt := if d.prot then some d.encId else none, info := e.info }

/-- The file of a prepared document (gopdf.go 1043-1066). -/
def file (e : Env) (d : Doc) : Bytes := Compile.compileBytes (progs e d) (trailerOf e d)

end Verif.Objects
