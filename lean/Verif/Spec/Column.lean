import Verif.Spec.FontMetrics
import Verif.Model.Layout
/- Independent specification: text in a column. -/
namespace Verif.Column

/-- The text a call puts in a cell, with the width of the cell. -/
def inCell : Typeset.Call → Option (ℚ × List Nat)
  | .cell (some r) t | .cellWithOption (some r) t _ _ => some (r.w, t)
  | _ => none

/-- `n` thousandths of the font size, in the unit of the document. -/
def inUnit (cfg : Units.Cfg) (size : ℚ) (n : Int) : ℚ := Units.fromPoints cfg (n * (size / 1000))

/-- The lines fill a column: no line could take the first character of the next one, and within a line every character but the first
had room after those before it. -/
structure Filled (exceeds : List Nat → Nat → Bool) (lines : List (List Nat)) : Prop where
  full : ∀ (i : Nat) (a b : List Nat), lines[i]? = some a → lines[i + 1]? = some b → ∃ c rest, b = c :: rest ∧ exceeds a c = true
  fit : ∀ l ∈ lines, ∀ pre c, pre ++ [c] <+: l → pre ≠ [] → exceeds pre c = false

/-- The width of a line - that of the glyphs in the file of the font that is current after the calls, with the character spacing - is at
most `w`. -/
def FitsIn (cfg : Units.Cfg) (calls : List Typeset.Call) (w : ℚ) (line : List Nat) : Prop :=
  ∃ (face : Typeset.Face) (space m : Int), (Typeset.setting calls).face = some face ∧
    Typeset.SpaceFor face.file (Typeset.setting calls).size (Units.toPoints cfg (Typeset.setting calls).spacing) space ∧
    Typeset.Measures face space none line m ∧ inUnit cfg (Typeset.setting calls).size m ≤ w

end Verif.Column
