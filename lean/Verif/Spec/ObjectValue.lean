import Verif.Spec.PdfObject
import Verif.Spec.SecurityHandler
import Verif.Spec.DocRefs
import Verif.Model.Objects
/-
Specification: the PDF object (ISO 32000-1: dictionaries of tables 28, 29, 30, 33, 58, 89, 95, 117, 121, 122, 144, 149, 152,
153, 173, 206, 20, 21) every object of a document is meant to be, given the caller's values, and the data of its stream.
-/
namespace Verif.ObjectValue
open Doc Objects PdfObject

/-- The decimal number with `k` digits nearest to `q`; halves go to the even one. -/
def decimal (k : Nat) (q : ℚ) : ℚ :=
  let x := |q| * 10 ^ k
  let n : ℚ := ⌊x⌋
  let r := if x - n < 1 / 2 ∨ (x - n = 1 / 2 ∧ ⌊x⌋ % 2 = 0) then n else n + 1
  (if q < 0 then -r else r) / 10 ^ k

/-- A dictionary. -/
def D (l : List (String × Val)) : Val := .dict (l.map fun p => (lit p.1, p.2))

/-- A name. -/
def N (s : String) : Val := .name (lit s)

/-- A natural number, an integer, a number rounded to `k` digits. -/
def nat (n : Nat) : Val := .num n
def int (n : Int) : Val := .num n
def rnd (k : Nat) (q : ℚ) : Val := .num (decimal k q)

def nums (l : List Val) : Val := .arr l

/-- References to objects. -/
def refs (l : List Nat) : Val := .arr (l.map .ref)

def box (k : Nat) (b : Box) : Val := .arr [rnd k b.a, rnd k b.b, rnd k b.c, rnd k b.d]

/-- An entry that may be absent. -/
def opt (key : String) (n : Option Nat) : List (String × Val) := match n with
  | some n => [(key, .ref n)]
  | none => []

/-- What is stored for a string or stream of object `n`: RC4 encrypts as it decrypts. -/
def stored (e : Env) (n : Nat) (data : Bytes) : Bytes := match e.key with
  | none => data
  | some k => SecurityHandler.decrypt e.md5 k n data

/-- UTF-16, big-endian, with byte order mark (text strings of characters below 65536). -/
def utf16 (s : List Nat) : Bytes := 0xFE :: 0xFF :: s.flatMap fun r => [UInt8.ofNat (r / 256), UInt8.ofNat r]

/-- Names of a resource category: prefix and number. -/
def named (p : String) (l : List (Nat × Nat)) : List (Bytes × Val) := l.map fun r => (lit p ++ dec r.1, .ref r.2)

/-- Colour space of an image. -/
def imageSpace (l : Look) (indexed : Bool) (rgb : Option Nat) (space : Space) : List (String × Val) :=
  if indexed then [("ColorSpace", .arr [N "Indexed", N "DeviceRGB", int (l.pal.length / 3 - 1), .ref (rgb.getD 0 + 1)])]
  else [("ColorSpace", .name space.bytes)] ++
    (if l.space = .cmyk then [("Decode", .arr ([1, 0, 1, 0, 1, 0, 1, 0].map nat))] else [])

/-- Entries common to all images. -/
def imageBase (l : Look) (indexed : Bool) (rgb : Option Nat) (space : Space) (bpc : Nat) : List (String × Val) :=
  [("Type", N "XObject"), ("Subtype", N "Image"), ("Width", nat l.w), ("Height", nat l.h)] ++
    imageSpace l indexed rgb space ++ [("BitsPerComponent", nat bpc), ("Filter", .name l.filter)]

/-- Decode parameters of PNG data. -/
def pngParms (colors bpc w : Nat) : List (String × Val) :=
  [("DecodeParms", D [("Predictor", nat 15), ("Colors", nat colors), ("BitsPerComponent", nat bpc), ("Columns", nat w)])]

/-- The dictionary of an image: as a mask it is its alpha channel in grey; otherwise its colours, with colour key and soft
mask unless it was first drawn through a mask. -/
def imageDict (l : Look) (info : ImgInfo) (smask rgb : Option Nat) : List (String × Val) :=
  if info.isMask then imageBase l info.indexed rgb .gray l.bpc ++ pngParms 1 8 l.w
  else imageBase l info.indexed rgb l.space l.bpc ++ (if l.jpeg then [] else pngParms l.colors l.bpc l.w) ++
    (if info.split then [] else
      (if l.trns = [] then [] else [("Mask", .arr (l.trns.flatMap fun t => [nat t.toNat, nat t.toNat]))]) ++
      (if info.alpha then [("SMask", .ref (smask.getD 0 + 1))] else []))

/-- The data of a stream before encryption; `none` for an object that is not a stream. -/
def streamData (e : Env) (d : Doc) (i : Nat) : Obj → Option Bytes
  | .content es => some (contentData e es)
  | .unicodeMap => some (e.cmap (i + 4))
  | .fontFile => some (e.fontFile (i + 3)).1
  | .image _ info _ _ => some (if info.isMask then (e.look i).smask else (e.look i).data)
  | .imageSMask => some (e.look (owner d (ownsSMask i))).smask
  | .deviceRGB => some (e.look (owner d (ownsPalette i))).pal
  | .group es => some (e.render es)
  | _ => none

/-- What is stored: groups are not encrypted. -/
def storedData (e : Env) (d : Doc) (i : Nat) (o : Obj) : Option Bytes := match o with
  | .group es => some (e.render es)
  | o => (streamData e d i o).map (stored e (i + 1))

/-- A separation colour space (§8.6.6.4) with an exponential function from no ink to the colour. -/
def separation (name : Bytes) (ink : Ink) : Val :=
  let f (c0 c1 : List Val) := D [("FunctionType", nat 2), ("Domain", .arr [nat 0, nat 1]), ("C0", .arr c0), ("C1", .arr c1), ("N", nat 1)]
  match ink with
  | .rgb r g b => .arr [N "Separation", .name name, N "DeviceRGB",
      f [nat 0, nat 0, nat 0] [rnd 3 (r / 255), rnd 3 (g / 255), rnd 3 (b / 255)]]
  | .cmyk c m y k => .arr [N "Separation", .name name, N "DeviceCMYK",
      f [nat 0, nat 0, nat 0, nat 0] [rnd 3 (c / 100), rnd 3 (m / 100), rnd 3 (y / 100), rnd 3 (k / 100)]]

/-- The object at index `i`. -/
def objVal (e : Env) (d : Doc) (i : Nat) : Obj → Val
  | .catalog o => D ([("Type", N "Catalog"), ("Pages", .ref 2)] ++
      (if o.isSome then [("PageMode", N "UseOutlines")] else []) ++ opt "Outlines" o)
  | .pages kids count => D [("Type", N "Pages"), ("MediaBox", .arr [nat 0, nat 0, rnd 2 e.size.1, rnd 2 e.size.2]),
      ("Count", nat count), ("Kids", refs kids)]
  | .outlines f l c => D ([("Type", N "Outlines"), ("Count", nat c)] ++ opt "First" f ++ opt "Last" l)
  | .procset fs cs xs gs => .dict [(lit "ProcSet", .arr [N "PDF", N "Text", N "ImageB", N "ImageC", N "ImageI"]),
      (lit "Font", .dict (named "F" (fs.map fun r => (r.count + 1, r.index + 1)))),
      (lit "ColorSpace", .dict (named "CS" (cs.map fun r => (r.count + 1, r.index + 1)))),
      (lit "XObject", .dict (named "I" (xs.map fun i => (i + 1, i + 1)) ++ e.templates.map fun t => (t.1.tail, .ref t.2))),
      (lit "ExtGState", .dict (named "GS" (gs.map fun i => (i + 1, i + 1))))]
  | .page cs ls r => D ([("Type", N "Page"), ("Parent", .ref 2), ("Resources", .ref r)] ++
      (if ls = [] then [] else [("Annots", refs ls)]) ++ opt "Contents" cs.head? ++
      (match e.pageSize i with | some s => [("MediaBox", .arr [nat 0, nat 0, rnd 2 s.1, rnd 2 s.2])] | none => []) ++
      (match e.trimBox i with | some b => [("TrimBox", box 2 b)] | none => []))
  | .content es => D ((if e.deflate.isSome then [("Filter", N "FlateDecode")] else []) ++
      [("Length", nat (contentData e es).length)])
  | .unicodeMap => D [("Length", nat (e.cmap (i + 4)).length)]
  | .fontFile => D [("Length", nat (e.fontFile (i + 3)).1.length), ("Filter", N "FlateDecode"),
      ("Length1", nat (e.fontFile (i + 3)).2)]
  | .fontDesc file =>
      let x := e.desc (i + 2)
      D [("Type", N "FontDescriptor"), ("Ascent", int x.ascent), ("CapHeight", int x.capHeight), ("Descent", int x.descent),
        ("Flags", int x.flags), ("FontBBox", .arr [int x.bbox.1, int x.bbox.2.1, int x.bbox.2.2.1, int x.bbox.2.2.2]),
        ("FontFile2", .ref (file + 1)), ("FontName", .name (subsetName (e.family (familyAt d (i + 2))))),
        ("ItalicAngle", int x.italicAngle), ("StemV", nat 0), ("XHeight", int x.xHeight)]
  | .cidFont desc => D [("BaseFont", .name (subsetName (e.family (familyAt d (i + 1))))),
      ("CIDSystemInfo", D [("Ordering", .str (lit "Identity")), ("Registry", .str (lit "Adobe")), ("Supplement", nat 0)]),
      ("FontDescriptor", .ref (desc + 1)), ("Subtype", N "CIDFontType2"), ("Type", N "Font"),
      ("W", .arr ((e.widths (i + 1)).flatMap fun p => [nat p.1, .arr [nat p.2]]))]
  | .font f _ _ cid uni => D [("BaseFont", .name (subsetName (e.family f))), ("DescendantFonts", refs [cid + 1]),
      ("Encoding", N "Identity-H"), ("Subtype", N "Type0"), ("ToUnicode", .ref (uni + 1)), ("Type", N "Font")]
  | .image _ info s r => D (imageDict (e.look i) info s r ++
      [("Length", nat (if info.isMask then (e.look i).smask else (e.look i).data).length)])
  | .imageSMask =>
      let l := e.look (owner d (ownsSMask i))
      D (imageBase { l with space := .gray } false none .gray 8 ++ pngParms 1 8 l.w ++ [("Length", nat l.smask.length)])
  | .deviceRGB => D [("Length", nat (e.look (owner d (ownsPalette i))).pal.length)]
  | .extGS (.alpha a b) => D [("Type", N "ExtGState"), ("ca", .num (a / 1000)), ("CA", .num (a / 1000)), ("BM", .name (blendName b))]
  | .extGS (.smask m) => D [("Type", N "ExtGState"), ("SMask", .ref (m + 1))]
  | .softMask g => D [("Type", N "Mask"), ("S", N "Luminosity"), ("G", .ref (g + 1))]
  | .group es => D [("FormType", nat 1), ("Subtype", N "Form"), ("Type", N "XObject"),
      ("Matrix", .arr ([1, 0, 0, 1, 0, 0].map nat)), ("BBox", box 3 (e.bbox i)),
      ("Group", D [("CS", N "DeviceGray"), ("S", N "Transparency")]), ("Length", nat (e.render es).length)]
  | .annot a => D ([("Type", N "Annot"), ("Subtype", N "Link"), ("Rect", box 2 (e.rect i)), ("Border", .arr ([0, 0, 0].map nat))] ++
      (match a with
      | none => [("A", D [("S", N "URI"), ("URI", .str (stored e (i + 1) (e.url i)))])]
      | some a => (match assoc d.anchors a with
        | some (p, y) => [("Dest", .arr [.ref (match p with | none => 0 | some p => p + 1), N "XYZ", nat 0, rnd 2 (e.anchorY y), .null])]
        | none => [])))
  | .colorSpace n _ => separation (e.csName n) (e.ink i)
  | .outline t de p pr ne => D ([("Parent", .ref p)] ++ opt "Prev" pr ++ opt "Next" ne ++
      [("Dest", .arr [.ref de, N "XYZ", nat 90, rnd 6 (e.outlineY i), nat 0]), ("Title", .str (utf16 (e.title t)))])
  | .encryption => D [("Filter", N "Standard"), ("V", nat 1), ("R", nat 2), ("O", .str e.o), ("U", .str e.u), ("P", int e.p)]
  | .imported => .null

/-- MD5 sums have 16 bytes and encryption keys 5 (what `SetProtection` makes, C19). -/
def Sound (e : Env) : Prop := (∀ b, (e.md5 b).length = 16) ∧ ∀ k, e.key = some k → k.length = 5

/-- Characters a PDF name can have without escapes. -/
def NameOK (b : Bytes) : Prop := ∀ c ∈ b, ContentReader.isRegular c = true ∧ c ≠ 35

/-- A font family: spaces and slashes are allowed too (they are replaced). -/
def FamilyOK (b : Bytes) : Prop := ∀ c ∈ b, (ContentReader.isRegular c = true ∨ c = 32 ∨ c = 47) ∧ c ≠ 35

/-- The caller's names and texts an object prints can be printed as they are, a page has at most one content stream (the
document is compiled once), a link's anchor exists, and the names of a resource category are distinct. -/
def Printable (e : Env) (d : Doc) (i : Nat) : Obj → Prop
  | .page cs _ _ => cs.length ≤ 1
  | .procset fs cs xs gs => (fs.map (·.count)).Nodup ∧ (cs.map (·.count)).Nodup ∧ xs.Nodup ∧ gs.Nodup ∧
      (e.templates.map (·.1)).Nodup ∧ ∀ t ∈ e.templates, ContentReader.TemplateName t.1 ∧ NameOK t.1.tail
  | .fontDesc _ => FamilyOK (e.family (familyAt d (i + 2)))
  | .cidFont _ => FamilyOK (e.family (familyAt d (i + 1)))
  | .font f _ _ _ _ => FamilyOK (e.family f)
  | .colorSpace n _ => NameOK (e.csName n)
  | .outline t _ _ _ _ => ∀ r ∈ e.title t, r < 65536
  | .annot (some a) => (assoc d.anchors a).isSome
  | .imported => False
  | _ => True

end Verif.ObjectValue

namespace Verif.ObjectValue
open Doc Objects PdfObject

/-- The names and texts the caller gave need no escapes: families and colour space names have regular characters, bookmark
titles have characters below 65536, imported templates have distinct names. -/
structure PlainNames (e : Env) : Prop where
  family : ∀ k, FamilyOK (e.family k)
  csName : ∀ k, NameOK (e.csName k)
  title : ∀ k, ∀ r ∈ e.title k, r < 65536
  templates : (e.templates.map (·.1)).Nodup
  template : ∀ t ∈ e.templates, ContentReader.TemplateName t.1 ∧ NameOK t.1.tail

/-- What is not an object of the library: imported objects are written as they were read; a link to an anchor that was never
set writes nothing. -/
def Written (d : Doc) : Obj → Prop
  | .imported => False
  | .annot (some a) => (assoc d.anchors a).isSome
  | _ => True

end Verif.ObjectValue

namespace Verif.ObjectValue
open Doc Objects PdfObject

/-- A text entry of the document information dictionary (§14.3.3), absent when empty. -/
def textEntry (key : String) (s : List Nat) : List (String × Val) := if s = [] then [] else [(key, .str (utf16 s))]

/-- The document information dictionary. -/
def infoVal (i : Info.PdfInfo) : Val :=
  D (textEntry "Author" i.author ++ textEntry "Title" i.title ++ textEntry "Subject" i.subject ++ textEntry "Creator" i.creator ++
    textEntry "Producer" i.producer ++
    (match i.creationDate with | some t => [("CreationDate", .str (lit "D:" ++ t))] | none => []))

/-- The trailer dictionary (table 15) of a file with `n` objects. -/
def trailerVal (t : Compile.Trailer) (n : Nat) : Val :=
  D ([("Size", nat (n + 1)), ("Root", .ref 1)] ++
    (match t.encrypt with | some id => [("Encrypt", .ref id), ("ID", .arr [.str [], .str []])] | none => []) ++
    (match t.info with | some i => [("Info", infoVal i)] | none => []))

/-- Texts of characters below 65536 and a date without parentheses, backslashes and line ends. -/
structure InfoOK (i : Info.PdfInfo) : Prop where
  author : ∀ r ∈ i.author, r < 65536
  title : ∀ r ∈ i.title, r < 65536
  subject : ∀ r ∈ i.subject, r < 65536
  creator : ∀ r ∈ i.creator, r < 65536
  producer : ∀ r ∈ i.producer, r < 65536
  date : ∀ t ∈ i.creationDate, ∀ b ∈ t, b ≠ 40 ∧ b ≠ 41 ∧ b ≠ 92 ∧ b ≠ 13

end Verif.ObjectValue
