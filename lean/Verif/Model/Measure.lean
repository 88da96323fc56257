import Verif.Model.Content
/-
Measuring text (gopdf.go 1908-1937).  As in Model/Content.lean the text is what `AddChars` returned.
-/
namespace Verif.Content
open Units (fromPoints)

/-- `MeasureTextWidth` (gopdf.go 1909-1921). -/
def measureTextWidth (e : Env) (c : Cur) (text : List Nat) : Option ℚ :=
  (createContent (e.fonts (c.font + 1)) text c.fontSize c.charSpacing none).map fun r => fromPoints e.cfg r.2.2

/-- `MeasureCellHeightByText` (gopdf.go 1924-1936). -/
def measureCellHeight (e : Env) (c : Cur) (text : List Nat) : Option ℚ :=
  (createContent (e.fonts (c.font + 1)) text c.fontSize c.charSpacing none).map fun r => fromPoints e.cfg r.2.1

end Verif.Content
