import Verif.Model.PlaceHolder
/- Small specification for placeholders. -/
namespace Verif.Drawing
open Content

/-- Calls that only fill the placeholders of a name left aligned, if at all. -/
def LeftOnly (name : List UInt8) : PCall → Prop
  | .fill n _ align => n = name → align ≠ right ∧ align ≠ center
  | _ => True

/-- Where a text of a given width begins in a placeholder of a given width, from its left edge. -/
def offset (align : Nat) (width text : ℚ) : ℚ :=
  if align = right then width - text else if align = center then (width - text) / 2 else 0

/-- A text item that is a placeholder. -/
def IsPlaceHolder : Item → Prop
  | .text t => t.isPlaceHolder = true
  | _ => False

end Verif.Drawing
