import Verif.Spec.Encoding
/-
Map files of `fontmaker`: a line `!C3 U+00C3 Atilde` gives a code (below 256) a character and a glyph name.
-/
namespace Verif.MapFile

def HexDigit (b : UInt8) (v : Nat) : Prop :=
  (48 ≤ b ∧ b ≤ 57 ∧ v = b.toNat - 48) ∨ (65 ≤ b ∧ b ≤ 70 ∧ v = b.toNat - 55) ∨ (97 ≤ b ∧ b ≤ 102 ∧ v = b.toNat - 87)

/-- A number with hexadecimal digits. -/
inductive Hex : Bytes → Nat → Prop
  | one {b : UInt8} {v : Nat} : HexDigit b v → Hex [b] v
  | more {s : Bytes} {n : Nat} {b : UInt8} {v : Nat} : Hex s n → HexDigit b v → Hex (s ++ [b]) (16 * n + v)

/-- What a line says. -/
structure Entry where
  code : Nat
  char : Nat
  name : Bytes

def Line (l : Bytes) (e : Entry) : Prop :=
  ∃ hc hu, Hex hc e.code ∧ Hex hu e.char ∧ e.code < 256 ∧ Encoding.GlyphName e.name ∧
    l = lit "!" ++ hc ++ lit " U+" ++ hu ++ lit " " ++ e.name

/-- The lines of a file. -/
inductive Lines : List Bytes → List Entry → Prop
  | nil : Lines [] []
  | cons {l : Bytes} {e : Entry} {ls : List Bytes} {es : List Entry} : Line l e → Lines ls es → Lines (l :: ls) (e :: es)

/-- What the file says about a code: its last line for the code. -/
def entry (es : List Entry) (c : Nat) : Option Entry := es.reverse.find? fun e => e.code = c

/-- The glyph name of a code; `.notdef` if no line is about it. -/
def nameOf (es : List Entry) (c : Nat) : Bytes := match entry es c with
  | some e => e.name
  | none => lit ".notdef"

end Verif.MapFile
