import Verif.Spec.FontMetrics
/-
Independent specification: text shown in one go - an array of codes and numbers (`TJ`) - and the kerning in it.
-/
namespace Verif.Viewer
open Paint

/-- The arrays shown, each with the number of its font (`shown` in Spec/Viewer.lean, without taking the arrays apart). -/
def runs : Option Nat → List (Option Nat) → List Op → List (Option Nat × List TextShow.Item)
  | _, _, [] => []
  | f, st, .q :: l => runs f (f :: st) l
  | f, st, .Q :: l => runs (st.head?.getD f) st.tail l
  | _, st, .Tf n _ :: l => runs (some n) st l
  | f, st, .TJ items :: l => (f, items) :: runs f st l
  | f, st, _ :: l => runs f st l

end Verif.Viewer

namespace Verif.Typeset

/-- A text as an array of codes and numbers: for every character the glyph that stands for it, and before it, if the pair with the
character before is kerned, the kerning - negated, as a number moves the pen back (ISO 32000-1 §9.4.3). -/
inductive Kerned (f : Face) : Option (Nat × Nat) → List Nat → List TextShow.Item → Prop
  | nil {left : Option (Nat × Nat)} : Kerned f left [] []
  | cons {left : Option (Nat × Nat)} {r r' g : Nat} {k : Int} {rest : List Nat} {items : List TextShow.Item} : DrawnAs f r r' → Stands f r g →
      PairKern f left (r', g) k → Kerned f (some (r', g)) rest items →
      Kerned f left (r :: rest) ((if k = 0 then [] else [.adjust (-k)]) ++ .code g :: items)

/-- How far the pen moves while an array is shown without character spacing, in thousandths of the size (§9.4.4), with the widths of a
font file. -/
inductive PenMoves (d : Bytes) : List TextShow.Item → Int → Prop
  | nil : PenMoves d [] 0
  | code {g w : Nat} {n : Int} {rest : List TextShow.Item} : PdfWidth d g w → PenMoves d rest n → PenMoves d (.code g :: rest) (w + n)
  | adjust {k n : Int} {rest : List TextShow.Item} : PenMoves d rest n → PenMoves d (.adjust k :: rest) (n - k)

/-- No text is justified: no cell with a rectangle has that alignment (64). -/
def NotJustified : Call → Prop
  | .cellWithOption (some _) _ opt _ => opt.align / 64 % 2 = 0
  | _ => True

end Verif.Typeset
