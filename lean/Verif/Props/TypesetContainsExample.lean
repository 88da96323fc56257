import Verif.Props.TypesetContains
import Verif.Props.TypesetMeasureExample
/- C75 on a concrete program with a concrete font. -/
set_option maxRecDepth 10000
namespace Verif.Props
open Typeset

/-- The font of the program has `A`; it has no `Z`. -/
theorem type_contains : typeResult.1.containsGlyph 65 = some true ∧ typeResult.1.containsGlyph 90 = some false := by decide +kernel

/-- The hypotheses of the three theorems hold for the program. -/
example : (∃ fc, (setting typeProgram).face = some fc ∧ (∃ g, g ≠ 0 ∧ Gives fc.file 65 g) ∧ ∀ g, Stands fc 65 g → Gives fc.file 65 g) ∧
    (Gives face.file 90 0 ∨ ∀ g, ¬ Gives face.file 90 g) := by
  have hf : ∀ f st fc, Typeset.Call.addFont f st fc ∈ typeProgram → accepted fc = true → GoodFace fc := by
    intro f st fc hm _
    simp [typeProgram] at hm
    rw [hm.2.2]; exact face_good
  refine ⟨contains_drawn type_run type_ok hf type_contains.1, contains_not type_run type_ok hf type_contains.2 ?_⟩
  have hk : ∀ f st fc, Typeset.Call.addFont f st fc ∈ typeProgram → accepted fc = true →
      GoodFace fc ∧ (fc.useKerning = true → GoodKern fc.file) ∧ Doc.noUnderline st = st := by
    intro f st fc hm _
    simp [typeProgram] at hm
    obtain ⟨rfl, rfl, rfl⟩ := hm
    exact ⟨face_good, fun _ => face_kern, by decide⟩
  obtain ⟨fc, -, -, h, -⟩ := measured_width type_run type_ok hk (by simp [IsScalar]) type_width
  rcases setting_face typeProgram {} _ h with h' | ⟨a, b, h'⟩ | ⟨a, b, h', -⟩
  · cases h'
  · simp at h'
  · simp [typeProgram] at h'
    exact h'.2.2 ▸ h

/-- Without a font the answer is no. -/
example : (Typeset.start false 0 0).containsGlyph 65 = some false := rfl

end Verif.Props
