import Verif.Model.TableBuild
/- Independent specification: the table that a caller's calls describe. -/
namespace Verif.TableBuild
open Table (CellStyle RowCell Align Column)

/-- The calls that make tables: where, the height of a row, the number of rows. -/
def made : List Op → List (ℚ × ℚ × ℚ × Int) := List.filterMap fun
  | .newTable x y h n => some (x, y, h, n)
  | _ => none

/-- The words for an alignment; any other word is left. -/
def aligned (align : List Nat) : Align :=
  if align = "right".toList.map Char.toNat then .right else if align = "center".toList.map Char.toNat then .center else .left

/-- The columns added to table `k`, in order. -/
def columnsOf (k : Nat) : List Op → List Column := List.filterMap fun
  | .addColumn t header width align => if t = k then some ⟨header, width, aligned align⟩ else none
  | _ => none

/-- The slices the caller made. -/
def slicesOf : List Op → List (List RowCell) := List.filterMap fun
  | .make cells => some cells
  | _ => none

/-- What was assigned to element `i` of slice `j`. -/
def assigned (j i : Nat) : List Op → List RowCell := List.filterMap fun
  | .assign j' i' c => if j' = j ∧ i' = i then some c else none
  | _ => none

/-- Slice `j` as the caller has left it: an element is what was assigned last, or as it was made. -/
def sliceOf (j : Nat) (h : List Op) : List RowCell :=
  ((slicesOf h).getD j []).mapIdx fun i c => ((assigned j i h).getLast?).getD c

/-- The rows added to table `k`, in order, with the slices of the whole history `h`. -/
def rowsOf (k : Nat) (h : List Op) : List (List RowCell) := h.filterMap fun
  | .addRow t row => if t = k then some (row.map fun c => ⟨c, none⟩) else none
  | .addStyledRow t j => if t = k then some (sliceOf j h) else none
  | _ => none

def tableStyles (k : Nat) : List Op → List CellStyle := List.filterMap fun
  | .setTableStyle t s => if t = k then some s else none
  | _ => none
def headerStyles (k : Nat) : List Op → List CellStyle := List.filterMap fun
  | .setHeaderStyle t s => if t = k then some s else none
  | _ => none
def cellStyles (k : Nat) : List Op → List CellStyle := List.filterMap fun
  | .setCellStyle t s => if t = k then some s else none
  | _ => none

/-- A black border, half a unit wide, on every side. -/
def plainStyle : CellStyle := { border := ⟨true, true, true, true, 1 / 2, ⟨0, 0, 0⟩⟩ }

/-- The last one, wherever it is set; or the default, for the header with a light grey background. -/
def tableStyle (k : Nat) (h : List Op) : CellStyle := ((tableStyles k h).getLast?).getD plainStyle
def headerStyle (k : Nat) (h : List Op) : CellStyle := ((headerStyles k h).getLast?).getD { plainStyle with fill := ⟨240, 240, 240⟩ }
def cellStyle (k : Nat) (h : List Op) : CellStyle := ((cellStyles k h).getLast?).getD plainStyle

end Verif.TableBuild
