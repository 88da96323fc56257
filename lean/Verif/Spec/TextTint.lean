import Verif.Spec.TextLook
import Verif.Spec.Used
import Verif.Spec.Viewer
import Verif.Spec.ObjectValue
/-
Independent specification: which graphics states characters are shown in - a reader of the operators - and the transparency the caller
asked for.
-/
namespace Verif.Viewer
open Paint FileReader PdfObject

/-- The codes shown by a page's operators, each with the names of the graphics states (`gs`, ISO 32000-1 §8.4.4) applied to it and not
undone by `Q`. -/
def tints : List Nat → List (List Nat) → List Op → List (Nat × List Nat)
  | _, _, [] => []
  | g, st, .q :: ops => tints g (g :: st) ops
  | g, st, .Q :: ops => tints (st.head?.getD g) st.tail ops
  | g, st, .gs n :: ops => tints (g ++ [n]) st ops
  | g, st, .TJ items :: ops => (items.filterMap codeOf).map (fun c => (c, g)) ++ tints g st ops
  | g, st, _ :: ops => tints g st ops

/-- The graphics states with the names `gs` on a page set the alpha (in thousandths) and blend mode asked for, and nothing else does;
opaque text is shown in no graphics state. -/
def Tinted (file : Bytes) (page : Val) (gs : List Nat) : Option (Nat × Nat) → Prop
  | none => gs = []
  | some (a, b) => gs ≠ [] ∧ ∀ n ∈ gs, Finds file page "ExtGState" "GS" n fun v =>
      Has "Type" "ExtGState" v ∧ v.get (lit "ca") = some (.num (a / 1000)) ∧ v.get (lit "CA") = some (.num (a / 1000)) ∧
      v.get (lit "BM") = some (.name (Objects.blendName b))

end Verif.Viewer

namespace Verif.Typeset

/-- Alpha (in thousandths) and blend mode in effect after a call (`none`: opaque). -/
def blendAfter (x : Option (Nat × Nat)) : Call → Option (Nat × Nat)
  | .other (.setTransparency t) => t.wants
  | .other .clearTransparency => none
  | _ => x

/-- What the text of a call is to be painted with: CellWithOption with its own transparency or the one in effect, Text and Cell opaquely
(they do not look the transparency up). -/
def tintOf (x : Option (Nat × Nat)) : Call → Option (Nat × Nat)
  | .cellWithOption _ _ _ tr => Doc.callSetting x tr
  | _ => none

/-- For every character written on page `k` (`n` pages are there) what it is to be painted with. -/
def tinted (k : Nat) : (n : Nat) → Option (Nat × Nat) → List Call → List (Option (Nat × Nat))
  | _, _, [] => []
  | n, x, c :: rest =>
    (if n = k then (texts c).map fun _ => tintOf x c else []) ++ tinted k (if startsPage c then n + 1 else n) (blendAfter x c) rest

def isText : Call → Bool
  | .text _ | .cell _ _ | .cellWithOption _ _ _ _ => true
  | _ => false

/-- Text in a rectangle. -/
def boxed : Call → Bool
  | .cell (some _) _ | .cellWithOption (some _) _ _ _ => true
  | _ => false

/-- Text after these calls is not joined with the text before them. -/
def parts : Call → Bool
  | .other (.addPage _) | .other (.plain (.setX _)) | .other (.plain (.setXY _ _)) | .other (.line _ _ _ _) => true
  | _ => false

/-- What the text before is painted with, if text that follows may be joined with it. -/
def runAfter (run : Option (Option (Nat × Nat))) (x : Option (Nat × Nat)) (c : Call) : Option (Option (Nat × Nat)) :=
  if parts c then none else if isText c then (if boxed c then run else some (tintOf x c)) else run

/-- Text that may be joined with the text before is to be painted like it (C34: `join_loses_transparency_fails`): between texts of
different transparency, the first of which is not in a rectangle, there is a SetX, SetXY, Line or AddPage. -/
def Parted : Option (Option (Nat × Nat)) → Option (Nat × Nat) → List Call → Prop
  | _, _, [] => True
  | run, x, c :: rest => (isText c = true → ∀ r, run = some r → tintOf x c = r) ∧ Parted (runAfter run x c) (blendAfter x c) rest

/-- The transparencies a call is given. -/
def settingsOf : Call → List Doc.Tr
  | .cellWithOption _ _ _ tr => tr.toList
  | .other c => Program.settingsOf c
  | _ => []

end Verif.Typeset
