import Verif.Spec.PdfObject
/-
Encodings of simple fonts (ISO 32000-1, §9.6.6.1 and Table 114): `Differences` is an array of numbers and names.  A number is the
code of the name that follows it; a name that follows a name has the next code.
-/
namespace Verif.Encoding
open PdfObject

/-- A glyph name: printable characters that are no delimiters. -/
def GlyphName (w : Bytes) : Prop := w ≠ [] ∧ ∀ b ∈ w, 33 ≤ b ∧ b ≤ 126 ∧ ContentReader.isRegular b = true ∧ b ≠ 35

/-- The codes of the names of a `Differences` array; `code` is the code of the next name, if there is one. -/
def assign : Option Nat → List Val → Option (List (Nat × Bytes))
  | _, [] => some []
  | code, .num q :: l => (ContentReader.nat q).bind fun n => assign (some n) l
  | some c, .name b :: l => (assign (some (c + 1)) l).map ((c, b) :: ·)
  | _, _ => none

/-- The glyph name of every code, for an encoding dictionary that changes `base` (the encoding `WinAnsiEncoding`). -/
def table (base : Nat → Bytes) (v : Val) : Option (Nat → Bytes) :=
  match v.get (lit "Type"), v.get (lit "BaseEncoding"), v.get (lit "Differences") with
  | some (.name t), some (.name b), some (.arr l) =>
    if t = lit "Encoding" ∧ b = lit "WinAnsiEncoding" then
      (assign none l).map fun as c => match as.reverse.find? fun p => p.1 = c with
        | some p => p.2
        | none => base c
    else none
  | _, _, _ => none

end Verif.Encoding
