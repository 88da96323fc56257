import Verif.Model.TTFTables
import Verif.Model.Objects
/-
The command `fontmaker` (fontmaker/core/fontmaker.go): the encoding and the widths of a font definition, and the encoding object
that is written from it (encoding_obj.go).
-/
namespace Verif.FontMaker
open TTF

/-- fontmap.go `FontMap`: the Unicode value (-1 if there is none) and the glyph name of a code. -/
structure FontMap where
  uv : Int
  name : Bytes
  deriving DecidableEq, Repr

/-- The table before any line of the file is read (fontmaker.go 455-461). -/
def notdef : FontMap := ⟨-1, lit ".notdef"⟩

/-- The digit of a hexadecimal number for `strconv.ParseInt`. -/
def hexDigit (b : UInt8) : Option Nat :=
  if 48 ≤ b ∧ b ≤ 57 then some (b.toNat - 48)
  else if 65 ≤ b ∧ b ≤ 70 then some (b.toNat - 55)
  else if 97 ≤ b ∧ b ≤ 102 then some (b.toNat - 87)
  else none

/-- `strconv.ParseInt(s, 16, 0)`.  Simplified: no sign, and no limit to the size of the number (a table with a code above 255
makes Go panic in any case). -/
def parseHex (s : Bytes) : Option Nat :=
  if s = [] then none else s.foldlM (fun n b => (hexDigit b).map (16 * n + ·)) 0

/-- `strings.Split(line, " ")`. -/
def splitSpace : Bytes → List Bytes
  | [] => [[]]
  | b :: bs => if b = 32 then [] :: splitSpace bs else match splitSpace bs with
    | [] => [[b]]
    | w :: ws => (b :: w) :: ws

/-- White space of ASCII. -/
def isSpace (b : UInt8) : Bool := b = 32 || (9 ≤ b && b ≤ 13)

/-- `strings.TrimSpace`.  Simplified: only the white space of ASCII is removed. -/
def trim (s : Bytes) : Bytes := ((s.dropWhile isSpace).reverse.dropWhile isSpace).reverse

/-- fontmaker.go 471-487, one turn of the loop of `LoadMap`: a line `!C3 U+00C3 Atilde`.  A short line, a short word or a code
above 255 is an index out of range. -/
def loadLine (maps : List FontMap) (line : Bytes) : Res (List FontMap) :=
  match splitSpace (trim line) with
  | w0 :: w1 :: ws =>
    if w0 = [] ∨ w1.length < 2 then throw .panic
    else match parseHex (w0.drop 1), parseHex (w1.drop 2) with
      | some c, some uv => match ws with
        | name :: _ => if c < maps.length then .ok (maps.set c ⟨uv, name⟩) else throw .panic
        | [] => throw .panic
      | _, _ => throw .err
  | _ => throw .panic

/-- fontmaker.go 449-490 `LoadMap`, for the lines of the file (the words that `bufio.ScanLines` gives). -/
def loadLines (maps : List FontMap) : List Bytes → Res (List FontMap)
  | [] => .ok maps
  | l :: ls => do
    let maps ← loadLine maps l
    loadLines maps ls

def loadMap (lines : List Bytes) : Res (List FontMap) := loadLines (List.replicate 256 notdef) lines

/-- fontmaker.go 312-321, the loop of `MakeFontEncoding` over the codes that are left; `last` is the code of the last name
written. -/
def diffs (names ref : Nat → Bytes) : Nat → List Nat → Bytes
  | _, [] => []
  | last, c :: cs =>
    if names c ≠ ref c then
      (if c ≠ last + 1 then dec c ++ lit " " else []) ++ (lit "/" ++ (names c ++ (lit " " ++ diffs names ref c cs)))
    else diffs names ref last cs

/-- fontmaker.go 303-323 `MakeFontEncoding`: `names` are the names of the encoding asked for, `ref` those of `cp1252.map`. -/
def makeFontEncoding (names ref : Nat → Bytes) : Bytes := trim (diffs names ref 0 (List.range 256))

/-- encoding_obj.go 17-22 `write`: the object for a font whose `GetDiff` is `diff`. -/
def encodingObj (diff : Bytes) : Bytes :=
  lit "<</Type /Encoding /BaseEncoding /WinAnsiEncoding /Differences [" ++ (diff ++ lit "]>>\n")

/-- fontmaker.go 435-438 `MultiplyAndRoundWithUInt64` with `k = 1000 / unitsPerEm` (line 388), math.go 3-10 `Round`.  Simplified:
exact numbers. -/
def scaled (f : Font) (w : Nat) : Int := TTF.round (1000 / (f.unitsPerEm : ℚ) * w)

/-- fontmaker.go 404-431, the widths of `GetInfoFromTrueType`: `chars` is the parser's map from characters to glyphs, as a list:
in a font whose segments are in order no character occurs twice.  Indices
out of range are left out: every glyph the map gives is less than 65536 and `widths` is as long as the number of glyphs (C26, C77). -/
def width (f : Font) (chars : List (Nat × Nat)) (m : FontMap) : Int :=
  if m.name ≠ lit ".notdef" then
    match chars.find? fun p => (p.1 : Int) = m.uv with
    | some p => scaled f (f.widths.getD p.2 0)
    | none => scaled f (f.widths.getD 0 0)
  else scaled f (f.widths.getD 0 0)

def widths (f : Font) (chars : List (Nat × Nat)) (maps : List FontMap) : List Int := maps.map (width f chars)

/-! ### The font descriptor -/

/-- fontmaker.go 440-443 `MultiplyAndRound` with `k = 1000 / unitsPerEm`.  Simplified: exact numbers. -/
def scaledInt (f : Font) (v : Int) : Int := TTF.round (1000 / (f.unitsPerEm : ℚ) * v)

/-- What else `ParseOS2` (ttfparser.go 430-444) and `ParsePost` (405-409) leave behind: whether the font may be embedded, is bold, is
monospaced. -/
def facts (d : Bytes) (ts : List (Bytes × Table)) : Res (Bool × Bool × Bool) := do
  let p ← seek ts "OS/2"
  let fsType ← u16 d (p + 8)
  let fsSelection ← u16 d (p + 62)
  let q ← seek ts "post"
  let pitch ← u32 d (q + 12)
  pure (decide (fsType ≠ 2 ∧ fsType / 512 % 2 = 0), decide (fsSelection / 32 % 2 = 1), decide (pitch ≠ 0))

/-- ttf_info.go `TtfInfo`, the entries that are used. -/
structure Definition where
  bold : Bool
  fixedPitch : Bool
  italicAngle : Int
  ascender : Int
  descender : Int
  capHeight : Int
  box : Int × Int × Int × Int
  missingWidth : Int
  widths : List Int
  deriving DecidableEq, Repr

/-- fontmaker.go 362-433 `GetInfoFromTrueType`. -/
def getInfo (d : Bytes) (maps : List FontMap) : Res Definition := do
  let i ← load d false
  let (embeddable, bold, fixed) ← facts d i.font.tables
  if embeddable = false then throw .err
  let s := scaledInt i.font
  pure ⟨bold, fixed, i.italicAngle, s i.os2.typoAscender, s i.os2.typoDescender, s i.os2.capHeight,
    (s i.box.1, s i.box.2.1, s i.box.2.2.1, s i.box.2.2.2), scaled i.font (i.font.widths.getD 0 0),
    widths i.font i.font.cmap.chars maps⟩

/-- fontmaker.go 235-251: the flags. -/
def Definition.flags (x : Definition) : Int :=
  (if x.fixedPitch then 1 else 0) + 32 + (if x.italicAngle ≠ 0 then 64 else 0)

/-- fontmaker.go 212-303 `MakeFontDescriptor`: the keys and values of the `FontDescItem`s (the Go text around them is left out). -/
def Definition.items (x : Definition) : List (Bytes × Bytes) :=
  [(lit "Ascent", decInt x.ascender),
   (lit "Descent", decInt x.descender),
   (lit "CapHeight", decInt x.capHeight),
   (lit "Flags", decInt x.flags),
   (lit "FontBBox", lit "[" ++ (decInt x.box.1 ++ (lit " " ++ (decInt x.box.2.1 ++ (lit " " ++ (decInt x.box.2.2.1 ++ (lit " " ++
     (decInt x.box.2.2.2 ++ lit "]")))))))),
   (lit "ItalicAngle", decInt x.italicAngle),
   (lit "StemV", decInt (if x.bold then 120 else 70)),
   (lit "MissingWidth", decInt x.missingWidth)]

/-- fontdescriptor_obj.go 16-41 `write`, for a font with this name and these items; `file` is `fontFileObjRelate`, a reference.
`getType` is never `Type1`. -/
def fontDescriptorObj (name : Bytes) (items : List (Bytes × Bytes)) (file : Nat) : Bytes :=
  lit "<</Type /FontDescriptor /FontName /" ++ (name ++ (lit " " ++
    (items.flatMap (fun p => lit "/" ++ (p.1 ++ (lit " " ++ (p.2 ++ lit " ")))) ++
      (lit "/FontFile2 " ++ (Objects.ref file ++ lit ">>\n")))))

/-- strhelper.go 14-25 `StrHelperGetStringWidthPrecise` (and 9-11), with the widths of a definition: fontmaker.go 325-345
`MakeWidthArray` and fontconverthelper.go give byte `c` entry `c` (the Go text in between is left out). -/
def stringWidth (cw : List Int) (size : ℚ) (bs : Bytes) : ℚ := ((bs.map fun b => cw.getD b.toNat 0).sum : Int) * (size / 1000)

/-! ### The other objects of a font with a definition -/

/-- fontconverthelper.go 10-19 `FontConvertHelperCw2Str`. -/
def cw2Str (cw : List Int) : Bytes :=
  lit " " ++ ((List.range 224).map (· + 32)).flatMap fun i => decInt (cw.getD i 0) ++ lit " "

/-- font_obj.go 27-47 `write` of an embedded font with this name; the numbers are those of the references written. -/
def fontObj (name : Bytes) (width descriptor encoding : Nat) : Bytes :=
  lit "<<\n  /Type /Font\n  /Subtype /TrueType\n  /BaseFont /" ++ (name ++ (lit "\n" ++ (lit "  /FirstChar 32 /LastChar 255\n" ++
    (lit "  /Widths " ++ (Objects.ref width ++ (lit "\n" ++ (lit "  /FontDescriptor " ++ (Objects.ref descriptor ++ (lit "\n" ++
    (lit "  /Encoding " ++ (Objects.ref encoding ++ (lit "\n" ++ lit ">>\n"))))))))))))

/-- embedfont_obj.go 25-51 `write`: `b` is the content of the file made by `fontmaker` (the font file compressed, fontmaker.go 64-83),
`size` the size of the font file; `cip` is the cipher of a protected document (`rc4Cip` with the key of the object). -/
def embedFontObj (cip : Option (Bytes → Bytes)) (b : Bytes) (size : Nat) : Bytes :=
  lit "<</Length " ++ (dec b.length ++ (lit "\n" ++ (lit "/Filter /FlateDecode\n" ++ (lit "/Length1 " ++ (dec size ++ (lit "\n" ++
    (lit ">>\n" ++ (lit "stream\n" ++ (match cip with
      | some f => f b ++ lit "\n"
      | none => b) ++ lit "\nendstream\n"))))))))

end Verif.FontMaker
