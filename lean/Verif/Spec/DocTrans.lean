import Verif.Spec.DocRefs
/- The transparency in effect, read off the calls alone. -/
namespace Verif.Doc

/-- What a setting asks for: nothing if it is fully opaque, otherwise alpha (in thousandths) and blend mode. -/
def Tr.wants (t : Tr) : Option (Nat × Nat) := if t.isOne then none else some (t.alpha3, t.blend)

/-- The setting in effect after the calls `h`, if `s` was in effect before: that of the last SetTransparency or
ClearTransparency. -/
def inEffect (s : Option (Nat × Nat)) : List Op → Option (Nat × Nat)
  | [] => s
  | .setTransparency t :: h => inEffect t.wants h
  | .clearTransparency :: h => inEffect none h
  | _ :: h => inEffect s h

/-- The setting a drawing call uses: its own if it has one, otherwise the one in effect. -/
def callSetting (s : Option (Nat × Nat)) : Option Tr → Option (Nat × Nat)
  | none => s
  | some t => t.wants

/-- The alpha is printed as 1.000 exactly if it is 1. -/
def Tr.sharp (t : Tr) : Prop := t.isOne = true ↔ t.alpha3 = 1000

/-- All settings mentioned in a call. -/
def Op.settings : Op → List Tr
  | .drawTr _ tr => tr.toList
  | .cell _ tr => tr.toList
  | .setTransparency t => [t]
  | .imageOpt _ _ tr mask => tr.toList ++ (match mask with | some (_, some t) => [t] | _ => [])
  | _ => []

/-- The graphics states `gs` named by an entry are exactly the one for the setting `s` (none if there is no setting). -/
def Doc.AppliesAlpha (d : Doc) (gs : List Nat) : Option (Nat × Nat) → Prop
  | none => gs = []
  | some (a, b) => ∃ n, gs = [n] ∧ d.objAt n = some (.extGS (.alpha a b))

/-- The graphics state `n` is a soft mask whose form draws the image with the given id, with the graphics states for the
setting `s`. -/
def Doc.MasksWith (d : Doc) (n id : Nat) (s : Option (Nat × Nat)) : Prop :=
  ∃ m g e x info sm rgb, d.objAt n = some (.extGS (.smask m)) ∧ d.objAt (m + 1) = some (.softMask g) ∧
    d.objAt (g + 1) = some (.group [e]) ∧ d.AppliesAlpha e.gs s ∧ e.xobj = some x ∧
    d.objAt x = some (.image id info sm rgb)

end Verif.Doc
