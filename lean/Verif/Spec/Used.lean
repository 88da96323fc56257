import Verif.Model.Program
import Verif.Spec.Canvas
import Verif.Spec.DocTrans
/-
Independent specification: what the figures a program draws are made with, in the caller's own terms: pictures by their id,
colour spaces by their name, transparency by the alpha and blend mode asked for.
-/
namespace Verif.Program
open Doc (callSetting)

/-- A mask: its picture, its transparency, and where it goes on a page of the given height. -/
structure MaskUse where
  picture : Nat
  setting : Option (Nat × Nat)
  item : Content.ImageItem
  height : ℚ

/-- What a figure is drawn with. -/
structure Used where
  /-- the picture, for an image -/
  picture : Option Nat := none
  /-- alpha (in thousandths) and blend mode, unless opaque -/
  setting : Option (Nat × Nat) := none
  mask : Option MaskUse := none
  /-- the colour space strokes are drawn with, if one is set (paths only) -/
  space : Option Nat := none

/-- What is in effect while drawing. -/
structure Effect where
  setting : Option (Nat × Nat) := none
  space : Option Nat := none
  saved : List (Option Nat) := []
  /-- of the page -/
  height : ℚ := 0

/-- The figures a call draws. -/
def figuresOf (s : Effect) : Call → List Used
  /- Line and Polygon use the transparency in effect -/
  | .line _ _ _ _ | .polygon _ _ => [{ setting := s.setting, space := s.space }]
  /- these two may have their own -/
  | .rectLowerOpt _ _ _ _ _ tr | .rectUpperOpt _ _ _ _ _ tr => [{ setting := callSetting s.setting tr, space := s.space }]
  /- these draw opaquely -/
  | .plain (.rectLower _ _ _ _) | .plain (.rectUpper _ _ _ _) | .plain (.oval _ _ _ _) | .plain (.curve _ _ _ _ _) =>
    [{ space := s.space }]
  | .plain (.template _ _ _ _ _) => [{}]
  | .image img _ => [{ picture := some img.id }]
  | .imageOpt img _ tr mask =>
    [{ picture := some img.id, setting := callSetting s.setting tr, mask := mask.map fun m => ⟨m.1.id, callSetting s.setting m.2.2, m.2.1, s.height⟩ }]
  | _ => []

/-- What is in effect after a call. -/
def Effect.after (s : Effect) : Call → Effect
  | .setTransparency t => { s with setting := t.wants }
  | .clearTransparency => { s with setting := none }
  | .setColourSpace name => { s with space := some name }
  | .plain (.setColour true _ _ _) | .plain (.setColourCMYK true _ _ _ _) | .plain (.setGrayStroke _) => { s with space := none }
  | .plain .save | .plain (.rotate _ _ _) => { s with saved := s.space :: s.saved }
  | .plain .restore | .plain .rotateReset => { s with space := s.saved.head?.getD s.space, saved := s.saved.tail }
  /- a page starts with the default colours; the transparency stays -/
  | .addPage h => { setting := s.setting, height := h }
  | _ => s

/-- The picture is drawn somewhere. -/
def Drawn (prog : List Call) (id : Nat) : Prop :=
  ∃ img i, img.id = id ∧ (Call.image img i ∈ prog ∨ ∃ tr m, Call.imageOpt img i tr m ∈ prog)

/-- The picture is used as a mask somewhere. -/
def AsMask (prog : List Call) (id : Nat) : Prop := ∃ img i tr m it t, Call.imageOpt img i tr (some (m, it, t)) ∈ prog ∧ m.id = id

/-- The picture is drawn through a mask somewhere. -/
def DrawnMasked (prog : List Call) (id : Nat) : Prop := ∃ img i tr m, Call.imageOpt img i tr (some m) ∈ prog ∧ img.id = id

/-- The pictures a call is given. -/
def imagesOf : Call → List Doc.Img
  | .image img _ => [img]
  | .imageOpt img _ _ mask => img :: (mask.map fun m => m.1).toList
  | _ => []

/-- An image with a mask is not rotated, or neither mirrored nor cropped (C50 `masked_mirrored_turned_fails`). -/
def Upright : Call → Prop
  | .imageOpt _ i _ (some (_, m, _)) =>
    (m.imageAngle + i.imageAngle = 0 ∨ (i.horizontalFlip = false ∧ i.verticalFlip = false ∧ i.crop = none)) ∧ Canvas.MaskUpright (.image m)
  | _ => True

/-- The transparency a call sets. -/
def settingsOf : Call → List Doc.Tr
  | .setTransparency t => [t]
  | .cellWithOption _ _ _ tr | .rectLowerOpt _ _ _ _ _ tr | .rectUpperOpt _ _ _ _ _ tr => tr.toList
  | .imageOpt _ _ tr m => tr.toList ++ (m.bind fun m => m.2.2).toList
  | _ => []

/-- The call returned without an error. -/
def succeeds (s : St) (c : Call) : Bool :=
  match docOp s.next c with
  | some (some op) => (Doc.step s.doc op).2 = .ok
  | _ => true

/-- The figures drawn on page `k` (`n` pages are there); calls that fail draw nothing and change nothing. -/
def used (e : Content.Env) (k : Nat) : Effect → (n : Nat) → St → List Call → List Used
  | _, _, _, [] => []
  | f, n, s, c :: rest =>
    (if n = k ∧ succeeds s c then figuresOf f c else []) ++
    match step e s c with
    | none => []
    | some s' => used e k (if succeeds s c then f.after c else f) (if isPage c then n + 1 else n) s' rest

end Verif.Program
