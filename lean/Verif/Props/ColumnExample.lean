import Verif.Props.Column
import Verif.Props.TypesetExample
import Verif.Props.TypesetMeasureExample
/- C79 on concrete programs. -/
set_option maxRecDepth 10000
namespace Verif.Props
open Typeset (Face GoodFace GoodKern)
open Layout (Has Block)
open Column (inCell)

/-- The font without kerning, and with kerning that the caller overrides: 500 units between any two characters. -/
def plainFace : Face := { file := faceFile }
def wideFace : Face := { file := faceFile, useKerning := true, override := fun _ _ _ _ _ => 500 }

def columnProgram (f : Face) : List Layout.Call := [.block (.basic (.addFont 1 0 f)), .addPage 800, .block (.basic (.other (.setFont 1 0 10)))]

def columnState (f : Face) : Layout.St := (Layout.steps demoEnv 100 (Layout.start false 10 10) (columnProgram f)).getD (Layout.start false 10 10)

theorem column_typed (f : Face) (hf : f = plainFace ∨ f = wideFace) : Typed demoEnv false 10 10 100 (columnProgram f) (columnState f) := by
  have hg : GoodFace f ∧ ∀ r, IsScalar (f.subst r) := by
    rcases hf with rfl | rfl <;> exact ⟨⟨face_good.file, face_good.cmap, face_good.em, face_good.glyphs, face_good.again⟩, fun r => by simp [plainFace, wideFace, IsScalar]⟩
  have hk : GoodKern f.file := by rcases hf with rfl | rfl <;> exact face_kern
  have has : ∀ b, Has (columnProgram f) b → b = .basic (.addFont 1 0 f) ∨ b = .basic (.other (.setFont 1 0 10)) := by
    rintro b (h | ⟨g, k, h, -⟩)
    · simpa [columnProgram] using h
    · simp [columnProgram] at h
  refine ⟨?_, ?_, ?_, ?_⟩
  · have h : (Layout.steps demoEnv 100 (Layout.start false 10 10) (columnProgram f)).isSome = true := by
      rcases hf with rfl | rfl <;> decide +kernel
    obtain ⟨s, hs⟩ := Option.isSome_iff_exists.1 h
    rw [columnState, hs]; rfl
  · intro b hb
    rcases has b hb with rfl | rfl <;> simp [Block.texts]
  · intro a st face hb
    rcases has _ hb with h | h
    · simp only [Block.basic.injEq, Typeset.Call.addFont.injEq] at h
      obtain ⟨-, -, rfl⟩ := h
      exact hg.2
    · cases h
  · intro a st face hb _
    rcases has _ hb with h | h
    · simp only [Block.basic.injEq, Typeset.Call.addFont.injEq] at h
      obtain ⟨-, rfl, rfl⟩ := h
      exact ⟨hg.1, fun _ => hk, by decide⟩
    · cases h

/-- Three lines of two or three characters, one ended by a newline, in a column 12 wide: A is 5.37, B 5.85 wide. -/
theorem column_lines : (Layout.multiCellOpt demoEnv 100 (columnState plainFace).log { w := 12, h := 40 } [65, 66, 65, 10, 66] {} {} none).map
    (fun l => l.calls.filterMap inCell) = some [(12, [65, 66]), (12, [65]), (12, [66])] := by decide +kernel

/-- MultiCell, of which the height leaves out the third line. -/
theorem column_cells : (Layout.multiCell demoEnv (columnState plainFace).log { w := 12, h := 11 } [65, 66, 65, 66, 66, 65]).map
    (fun l => l.calls.filterMap inCell) = some [(12, [65, 66]), (12, [65, 66])] := by decide +kernel

theorem column_plain : ∀ face, (Typeset.setting (columnState plainFace).log.calls).face = some face → face.useKerning = false := by
  intro face h
  have hb : ((Typeset.setting (columnState plainFace).log.calls).face.map (·.useKerning)) = some false := by decide +kernel
  rw [h] at hb
  simpa using hb

-- the hypotheses of the theorems are met
example : ∃ l' face space cs, Layout.multiCellOpt demoEnv 100 (columnState plainFace).log { w := 12, h := 40 } [65, 66, 65, 10, 66] {} {} none = some l' ∧
    l'.calls = (columnState plainFace).log.calls ++ cs ∧ ∀ w line, (w, line) ∈ cs.filterMap inCell → w = 12 ∧ (line ≠ [] →
      ∃ m, Typeset.Measures face space none line m ∧ Column.inUnit demoEnv.cfg (Typeset.setting (columnState plainFace).log.calls).size m ≤ 12) := by
  have hc := column_lines
  obtain ⟨l', hl, -⟩ := Option.map_eq_some_iff.1 hc
  obtain ⟨face, space, cs, -, -, h3, h4⟩ := wrapped_lines_fit (column_typed plainFace (.inl rfl)) (by simp [IsScalar]) rfl (by decide) column_plain hl
  exact ⟨l', face, space, cs, hl, h3, h4⟩

example : ∃ l' face space cs, Layout.multiCell demoEnv (columnState plainFace).log { w := 12, h := 11 } [65, 66, 65, 66, 66, 65] = some l' ∧
    l'.calls = (columnState plainFace).log.calls ++ cs ∧ ∀ w line, (w, line) ∈ cs.filterMap inCell → w = 12 ∧ (2 ≤ line.length →
      ∃ m, Typeset.Measures face space none line m ∧ Column.inUnit demoEnv.cfg (Typeset.setting (columnState plainFace).log.calls).size m ≤ 12) := by
  have hc := column_cells
  obtain ⟨l', hl, -⟩ := Option.map_eq_some_iff.1 hc
  obtain ⟨face, space, cs, -, -, h3, h4⟩ := cells_fit (column_typed plainFace (.inl rfl)) (by simp [IsScalar]) column_plain hl
  exact ⟨l', face, space, cs, hl, h3, h4⟩

/-- **C79** With kerning a line may be wider than the rectangle: the width of a line and the width of the next character are added
without the kerning between them.  Here MultiCellWithOption puts "AB" in a cell 12 wide, and MeasureTextWidth says it is wider than
13. -/
theorem wrapped_lines_fit_fails : ∃ (face : Face) (prog : List Layout.Call) (s : Layout.St) (l' : Layout.Log) (w : ℚ),
    Typed demoEnv false 10 10 100 prog s ∧ (Typeset.setting s.log.calls).face = some face ∧ face.useKerning = true ∧
      Layout.multiCellOpt demoEnv 100 s.log { w := 12, h := 40 } [65, 66, 65] {} {} none = some l' ∧ (12, [65, 66]) ∈ l'.calls.filterMap inCell ∧
      s.log.s.measureWidth demoEnv [65, 66] = some w ∧ 13 < w := by
  have h1 : (Layout.multiCellOpt demoEnv 100 (columnState wideFace).log { w := 12, h := 40 } [65, 66, 65] {} {} none).map
      (fun l => l.calls.filterMap inCell) = some [(12, [65, 66]), (12, [65])] := by decide +kernel
  have h2 : ((columnState wideFace).log.s.measureWidth demoEnv [65, 66]).map (fun w => decide (13 < w)) = some true := by decide +kernel
  have h3 : ((Typeset.setting (columnState wideFace).log.calls).face.map (·.useKerning)) = some true := by decide +kernel
  obtain ⟨l', hl, e⟩ := Option.map_eq_some_iff.1 h1
  obtain ⟨w, hw, e2⟩ := Option.map_eq_some_iff.1 h2
  obtain ⟨face, hf, e3⟩ := Option.map_eq_some_iff.1 h3
  exact ⟨face, _, _, l', w, column_typed wideFace (.inr rfl), hf, e3, hl, by rw [e]; simp, hw, by simpa using e2⟩

end Verif.Props
