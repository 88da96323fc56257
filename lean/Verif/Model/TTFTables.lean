import Verif.Model.TTF
import Mathlib.Data.Rat.Floor
/-
The tables of a font file that give its metrics, its name and its kerning (`fontmaker/core/ttfparser.go`,
`ttfparser_kern.go`), and the numbers derived from them.
-/
namespace Verif.TTF

/-- ttfparser.go 864-882, in `ParseHead`: the bounding box. -/
def parseBox (d : Bytes) (ts : List (Bytes × Table)) : Res (Int × Int × Int × Int) := do
  let p ← seek ts "head"
  let x0 ← i16 d (p + 36)
  let y0 ← i16 d (p + 38)
  let x1 ← i16 d (p + 40)
  let y1 ← i16 d (p + 42)
  pure (x0, y0, x1, y1)

/-- ttfparser.go 1027-1037 `Read` of `n` bytes at `p`; `bytes.Reader.Read` reports the end of the file even when nothing is
asked for. -/
def readBytes (d : Bytes) (p n : Nat) : Res Bytes :=
  if d.length ≤ p then .error .err else if d.length < p + n then .error .err else .ok ((d.drop p).take n)

/-- ttfparser.go 528-573, the loop of `ParseName` over the records at `p`, `strings` being the position of the string storage:
the name of the first record with name number 6, without the bytes 0 and the characters `0` (line 565 removes the text
`strconv.Itoa(0)`).  The pattern of line 566 starts with an empty alternative, which is preferred at every position: it matches
nothing but the empty string, and nothing more is removed. -/
def nameLoop (d : Bytes) (strings : Nat) : Nat → Nat → Res Bytes
  | _, 0 => .ok []
  | p, k + 1 => do
    let id ← u16 d (p + 6)
    let len ← u16 d (p + 8)
    let off ← u16 d (p + 10)
    if id = 6 then do
      let s ← readBytes d (strings + off) len
      pure (s.filter fun b => b ≠ 0 ∧ b ≠ 48)
    else nameLoop d strings (p + 12) k

/-- ttfparser.go 499-580 `ParseName`: an empty name is an error. -/
def parseName (d : Bytes) (ts : List (Bytes × Table)) : Res Bytes := do
  let p ← seek ts "name"
  let count ← u16 d (p + 2)
  let strings ← u16 d (p + 4)
  let s ← nameLoop d (p + strings) (p + 6) count
  if s = [] then throw .err
  pure s

/-- What `ParseOS2` leaves behind, as far as it is used. -/
structure OS2 where
  version : Nat
  typoAscender : Int
  typoDescender : Int
  winAscent : Nat
  winDescent : Nat
  xHeight : Int
  capHeight : Int
  deriving DecidableEq, Repr

/-- ttfparser.go 415-496 `ParseOS2`; `asc` is the ascender of `hhea`. -/
def parseOS2 (d : Bytes) (ts : List (Bytes × Table)) (asc : Int) : Res OS2 := do
  let p ← seek ts "OS/2"
  let version ← u16 d p
  let _ ← u16 d (p + 8)
  let _ ← u16 d (p + 62)
  let ta ← i16 d (p + 68)
  let td ← i16 d (p + 70)
  let _ ← i16 d (p + 72)
  let wa ← u16 d (p + 74)
  let wd ← u16 d (p + 76)
  if version ≥ 2 then do
    let xh ← i16 d (p + 86)
    let ch ← i16 d (p + 88)
    pure ⟨version, ta, td, wa, wd, xh, ch⟩
  else pure ⟨version, ta, td, wa, wd, 0, asc⟩

/-- ttfparser.go 373-412 `ParsePost`: italic angle (its integer part), underline position and thickness. -/
def parsePost (d : Bytes) (ts : List (Bytes × Table)) : Res (Int × Int × Int) := do
  let p ← seek ts "post"
  let angle ← i16 d (p + 4)
  let pos ← i16 d (p + 8)
  let thick ← i16 d (p + 10)
  let _ ← u32 d (p + 12)
  pure (angle, pos, thick)

/-- ttfparser_kern.go 76-102: the pairs of a subtable, left glyph, right glyph, value.  The Go map of maps is a list with the
newest entry first. -/
def kernPairs (d : Bytes) : Nat → Nat → List ((Nat × Nat) × Int) → Res (List ((Nat × Nat) × Int))
  | _, 0, acc => .ok acc
  | p, k + 1, acc => do
    let l ← u16 d p
    let r ← u16 d (p + 2)
    let v ← i16 d (p + 4)
    kernPairs d (p + 6) k (((l, r), v) :: acc)

/-- ttfparser_kern.go 34-74: `k` subtables from `p`.  Each replaces the pairs of the one before (line 56 makes a new map). -/
def kernTables (d : Bytes) : Nat → Nat → List ((Nat × Nat) × Int) → Res (List ((Nat × Nat) × Int))
  | _, 0, acc => .ok acc
  | p, k + 1, _ => do
    let coverage ← u16 d (p + 4)
    if coverage / 16 % 16 ≠ 0 then throw .err
    let n ← u16 d (p + 6)
    let l ← kernPairs d (p + 14) n []
    kernTables d (p + 14 + 6 * n) k l

/-- ttfparser_kern.go 9-43 `Parsekern`: `none` when there is no such table. -/
def parseKern (d : Bytes) (ts : List (Bytes × Table)) : Res (Option (List ((Nat × Nat) × Int))) :=
  match tableOf ts (lit "kern") with
  | none => .ok none
  | some t => do
    let _ ← u16 d t.offset
    let n ← u16 d (t.offset + 2)
    let l ← kernTables d (t.offset + 4) n []
    pure (some l)

/-- The parsed font (ttfparser.go 21-79) with its metrics. -/
structure Info where
  font : Font
  box : Int × Int × Int × Int
  name : Bytes
  os2 : OS2
  italicAngle : Int
  underlinePosition : Int
  underlineThickness : Int
  kern : Option (List ((Nat × Nat) × Int))
  deriving DecidableEq, Repr

/-- ttfparser.go 224-322 `ParseFontData`.  Go parses `name`, `OS/2` and `post` before `loca`: as all four report the same kind of
fault here, the order does not matter. -/
def load (d : Bytes) (useKerning : Bool) : Res Info := do
  let f ← parseFont d
  let box ← parseBox d f.tables
  let name ← parseName d f.tables
  let os2 ← parseOS2 d f.tables f.ascender
  let (angle, pos, thick) ← parsePost d f.tables
  let kern ← if useKerning then parseKern d f.tables else pure none
  pure ⟨f, box, name, os2, angle, pos, thick, kern⟩

/-- ttfparser.go 143-148 `Ascender`. -/
def Info.ascender (f : Info) : Int := if f.os2.typoAscender = 0 then f.font.ascender else f.os2.winAscent

/-- ttfparser.go 150-159 `Descender`. -/
def Info.descender (f : Info) : Int :=
  if f.os2.typoDescender = 0 then f.font.descender
  else if f.font.descender < 0 then -(f.os2.winDescent : Int) else f.os2.winDescent

/-- `int(float64)`: toward zero. -/
def toward0 (q : ℚ) : Int := if q < 0 then -⌊-q⌋ else ⌊q⌋

/-- ttfparser.go 105-111 `XHeight`; the product with 0.66 is exact here, and in Go close enough that its integer part is the
same (the float nearest to 0.66 is above it). -/
def Info.xHeight (f : Info) : Int :=
  if f.os2.version ≥ 2 ∧ f.os2.xHeight ≠ 0 then f.os2.xHeight else toward0 (66 / 100 * f.font.ascender)

/-- math.go 3-10 `Round`. -/
def round (q : ℚ) : Int := if q < 0 then toward0 (q - 1 / 2) else toward0 (q + 1 / 2)

/-- subfont_descriptor_obj.go 57-59 `DesignUnitsToPdf`, for a font with units per em.  Numbers are 16 bits wide, so the quotient
in floating point lies on the same side of every half as the exact one. -/
def Info.toPdf (f : Info) (v : Int) : Int := round ((v : ℚ) * 1000 / f.font.unitsPerEm)

/-- subset_font_obj.go 85-101 `KernValueByLeft`, kern_table.go 17-22 `ValueByRight`. -/
def Info.kernValue (f : Info) (l r : Nat) : Int :=
  match f.kern with
  | none => 0
  | some t => ((t.find? fun e => e.1 == (l, r)).map (·.2)).getD 0

end Verif.TTF
