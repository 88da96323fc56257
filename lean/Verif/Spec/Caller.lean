import Verif.Model.Caller
/- What a caller means by the calls of a program: each is given the values the variables have when it is called, as the caller assigned them. -/
namespace Verif.Caller
open Units

/-- What a transparency setting means: nothing if opaque. -/
def Tr.meant (mill : ℚ → Int) (t : Tr) : Option (Int × Nat) := if t.alpha = 1 then none else some (mill t.alpha, t.blend)

/-- A mask's place in points: the position with the document's settings, the size with its unit (C21). -/
def placed (c : Cfg) (v : Mask) : Mask :=
  { x := toPoints c v.x, y := toPoints c v.y, rect := v.rect.map fun q => q.toPointsT c.unit }

/-- What the program asks for: the memory changes by the caller's assignments only; lengths are in the document's unit (a crop window is
in points); `cur` is the setting in force for drawings with none of their own. -/
def asked (c : Cfg) (mill : ℚ → Int) (m : Mem) (cur : Option (Int × Nat)) : List Act → List Shown
  | [] => []
  | .lineType r phase :: p => .dash ((m.dash r).map (toPoints c)) (toPoints c phase) :: asked c mill m cur p
  | .cropped r :: p => .crop (m.crop r) :: asked c mill m cur p
  | .masked r :: p => .mask (placed c (m.mask r)) :: asked c mill m cur p
  | .draw none :: p => .alpha cur :: asked c mill m cur p
  | .draw (some r) :: p => .alpha ((m.tr r).meant mill) :: asked c mill m cur p
  | .setTransparency v :: p => asked c mill m (v.meant mill) p
  | .clearTransparency :: p => asked c mill m none p
  | .setDash r v :: p => asked c mill { m with dash := Function.update m.dash r v } cur p
  | .setCrop r v :: p => asked c mill { m with crop := Function.update m.crop r v } cur p
  | .setMask r v :: p => asked c mill { m with mask := Function.update m.mask r v } cur p
  | .setTr r v :: p => asked c mill { m with tr := Function.update m.tr r v } cur p

/-- The mask `r` is passed in the program without having been assigned before. -/
def Reuses (r : Nat) : List Act → Prop
  | [] => False
  | .setMask q _ :: p => q ≠ r ∧ Reuses r p
  | .masked q :: p => q = r ∨ Reuses r p
  | _ :: p => Reuses r p

/-- The caller leaves alone what it has given away: after `SetCustomLineType` the slice is neither changed nor (unless lengths are in points)
passed again; a crop window and a transparency struct are not changed after they were passed; a mask is assigned anew before it is passed again. -/
def LeavesAlone (points : Bool) : List Act → Prop
  | [] => True
  | .lineType r _ :: p => (∀ v, .setDash r v ∉ p) ∧ (points = false → ∀ q, .lineType r q ∉ p) ∧ LeavesAlone points p
  | .cropped r :: p => (∀ v, .setCrop r v ∉ p) ∧ LeavesAlone points p
  | .masked r :: p => (points = false → ¬ Reuses r p) ∧ LeavesAlone points p
  | .draw (some r) :: p => (∀ v, .setTr r v ∉ p) ∧ LeavesAlone points p
  | _ :: p => LeavesAlone points p

/-- The transparency settings of a program with the memory `m`: those it assigns, those it passes by value and those there at the start. -/
def Settings (m : Mem) (p : List Act) (t : Tr) : Prop :=
  (∃ r, m.tr r = t) ∨ (∃ r, .setTr r t ∈ p) ∨ .setTransparency t ∈ p

end Verif.Caller
