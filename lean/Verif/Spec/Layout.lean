import Verif.Model.Layout
import Verif.Spec.Table
import Verif.Spec.Typeset
/-
Independent specification: the text that a program with wrapped text, tables, headers and footers writes - as a program that only
selects fonts, adds pages and writes plain text.
-/
namespace Verif.Layout

/-- What is left of a text that is broken into lines: newlines disappear; a character `ind` at which a line is broken does, too;
where a word is broken, `sep` is added.  Everything else is kept, in order. -/
inductive Kept (ind : Option Nat) (sep : List Nat) : List Nat → List Nat → Prop
  | nil : Kept ind sep [] []
  | newline {t w : List Nat} : Kept ind sep t w → Kept ind sep (10 :: t) w
  | char {c : Nat} {t w : List Nat} : c ≠ 10 → Kept ind sep t w → Kept ind sep (c :: t) (c :: w)
  | indicator {c : Nat} {t w : List Nat} : ind = some c → Kept ind sep t w → Kept ind sep (c :: t) w
  | separator {t w : List Nat} : sep ≠ [] → Kept ind sep t w → Kept ind sep t (sep ++ w)

/-- The character at which lines are broken by preference. -/
def indicatorOf (b : Content.BreakOption) : Option Nat := match b.mode with | .strict => none | .indicator => some b.indicator

/-- The font a cell of a table names. -/
def cellFont (c : Table.Cell) : List Typeset.Call := match c.style.font with
  | none => []
  | some f => [.other (.setFont f 0 c.style.size)]

/-- A cell of a table: its font if it names one, its text broken at spaces. -/
def CellWrites (c : Table.Cell) (p : List Typeset.Call) : Prop :=
  ∃ w, Kept (some 32) [] c.content w ∧ p = cellFont c ++ [.text w]

/-- What is written by a block, as plain calls. -/
inductive Writes : Block → List Typeset.Call → Prop
  | basic (c : Typeset.Call) : Writes (.basic c) [c]
  /-- MultiCell may stop early, when the height is used up -/
  | multiCell (r : Units.Rect) (t w : List Nat) : w <+: t → Writes (.multiCell r t) [.text w]
  /-- if IsFitMultiCell answers true, MultiCell writes everything -/
  | fits (r : Units.Rect) (t : List Nat) : Writes (.ifFits r t) [.text t]
  | fitsNot (r : Units.Rect) (t : List Nat) : Writes (.ifFits r t) []
  | multiCellOpt (r : Units.Rect) (t w : List Nat) (opt : Content.CellOption) (b : Content.BreakOption) (tr : Option Doc.Tr) :
      Kept (indicatorOf b) b.separator t w → Writes (.multiCellOpt r t opt b tr) [.text w]
  /-- header, rows, blank rows -/
  | table (t : Table.Table) (ps : List (List Typeset.Call)) :
      List.Forall₂ CellWrites (TableSpec.headerCells t ++ TableSpec.dataCells t ++ TableSpec.blankCells t) ps → Writes (.table t) ps.flatten

def WritesAll (bs : List Block) (p : List Typeset.Call) : Prop := ∃ ps, List.Forall₂ Writes bs ps ∧ p = ps.flatten

/-- What is written by a program: every page begins with what the header and the footer function last given write. -/
inductive Written : (header footer : Nat → List Block) → (pages : Nat) → List Call → List Typeset.Call → Prop
  | nil {h f : Nat → List Block} {n : Nat} : Written h f n [] []
  | block {h f : Nat → List Block} {n : Nat} {b : Block} {rest : List Call} {p q : List Typeset.Call} :
      Writes b p → Written h f n rest q → Written h f n (.block b :: rest) (p ++ q)
  | page {h f : Nat → List Block} {n : Nat} {ht : ℚ} {rest : List Call} {a b q : List Typeset.Call} :
      WritesAll (h (n + 1)) a → WritesAll (f (n + 1)) b → Written h f (n + 1) rest q →
      Written h f n (.addPage ht :: rest) (.other (.addPage ht) :: (a ++ b ++ q))
  | header {h f g : Nat → List Block} {n : Nat} {rest : List Call} {q : List Typeset.Call} :
      Written g f n rest q → Written h f n (.addHeader g :: rest) q
  | footer {h f g : Nat → List Block} {n : Nat} {rest : List Call} {q : List Typeset.Call} :
      Written h g n rest q → Written h f n (.addFooter g :: rest) q

def isPage : Call → Bool
  | .addPage _ => true
  | _ => false

/-- A block that the program may execute. -/
def Has (prog : List Call) (b : Block) : Prop :=
  .block b ∈ prog ∨ ∃ f k, (Call.addHeader f ∈ prog ∨ Call.addFooter f ∈ prog) ∧ b ∈ f k

/-- The text of a block. -/
def Block.texts : Block → List (List Nat)
  | .basic (.text t) | .basic (.cell _ t) | .basic (.cellWithOption _ t _ _) | .basic (.measure t) => [t]
  | .basic _ => []
  | .multiCell _ t | .ifFits _ t => [t]
  | .multiCellOpt _ t _ b _ => [t, b.separator]
  | .table t => t.columns.map (·.header) ++ t.rows.flatten.map (·.content)

end Verif.Layout
