import Verif.Props.PanicsLayout
import Verif.Props.ColumnExample
import Verif.Props.TypesetAcceptExample
/- C82 on concrete programs. -/
set_option maxRecDepth 10000
namespace Verif.Props
open Typeset (Possible needsFont needsPage startsPage setting)
open FontFile Typeset

/-- Every call of `typeProgram` is one a caller can make, also adding the font. -/
theorem type_possible : ∀ c ∈ typeProgram, Possible c := by
  intro c hc
  have hok := type_ok c hc
  simp [typeProgram] at hc
  rcases hc with rfl | rfl | rfl | rfl
  · refine ⟨hok, face_distinct, ?_⟩
    intro p l g h0 h1 h2
    have : p = 420 := (Embed.HasTable_fun face_distinct h0 (face_table (lit "hhea") ⟨52560175, 420, 36⟩ (by decide +kernel))).1
    subst this
    have h3 := TTF.u16_ok.2 h1
    exact absurd h3 (by decide +kernel)
  · exact ⟨hok, rfl, by simp [Program.docOp]⟩
  · exact ⟨hok, rfl, by simp [Program.docOp]⟩
  · exact ⟨hok, trivial⟩

theorem type_faces : ∀ f st fc, Typeset.Call.addFont f st fc ∈ typeProgram → Typeset.accepted fc = true → GoodFace fc ∧ Doc.noUnderline st = st := by
  intro f st fc h _
  simp [typeProgram] at h
  obtain ⟨rfl, rfl, rfl⟩ := h
  exact ⟨face_good, by decide⟩

/-- `program_runs` on `typeProgram`: it has a page and a font when it draws text. -/
example : Typeset.steps demoEnv (Typeset.start false 10 10) typeProgram ≠ none := by rw [type_run]; simp

/-- The same without the page: the text panics; without the font: so does measuring. -/
example : Typeset.steps demoEnv (Typeset.start false 10 10) [.addFont 1 0 face, .other (.setFont 1 0 10)] ≠ none ∧
    Typeset.steps demoEnv (Typeset.start false 10 10) [.addFont 1 0 face, .other (.setFont 1 0 10), .text [66]] = none ∧
    Typeset.steps demoEnv (Typeset.start false 10 10) [.addFont 1 0 face, .other (.addPage 800), .measure [66]] = none := by decide +kernel

/-- After `typeProgram` a text with a character the font does not have does not panic. -/
example : Typeset.step demoEnv typeResult.1 (.text [90, 0x1F600]) ≠ none := by
  rw [Ne, call_panics type_run type_ok type_faces _ ⟨by simp [Typeset.Call.Ok, IsScalar], trivial⟩]
  have h1 : (setting typeProgram).face ≠ none := by
    have : (setting typeProgram).face.isSome = true := by decide +kernel
    intro h; rw [h] at this; cases this
  have h2 : typeProgram.countP startsPage = 1 := by decide +kernel
  simp [h1, h2]

theorem column_face : (setting (columnState plainFace).log.calls).face ≠ none := by
  have : (setting (columnState plainFace).log.calls).face.isSome = true := by decide +kernel
  intro h; rw [h] at this; cases this

/-- MultiCell of any text returns, whatever the rectangle. -/
example (r : Units.Rect) (t : List Nat) (ht : ∀ c ∈ t, IsScalar c) : Layout.multiCell demoEnv (columnState plainFace).log r t ≠ none :=
  (multi_cell_returns (column_typed _ (.inl rfl)) r t ht).1 column_face (by simp [columnProgram, Layout.isPage])

/-- MultiCellWithOption of any text over A, B and newlines returns if the rectangle is at least 6 wide. -/
example (r : Units.Rect) (t : List Nat) (ht : ∀ c ∈ t, c = 65 ∨ c = 66 ∨ c = 10) (hne : t ≠ []) (hw : 6 ≤ r.w) :
    ∃ k, Layout.multiCellOpt demoEnv k (columnState plainFace).log r t {} {} none ≠ none := by
  refine multi_cell_option_returns (column_typed _ (.inl rfl)) r t {} {} none ?_ hne rfl column_face (by simp [columnProgram, Layout.isPage]) ?_
  · intro c hc
    rcases ht c hc with rfl | rfl | rfl <;> simp [IsScalar]
  · intro c hc h10 w hm
    have h1 : ((columnState plainFace).log.s.measureWidth demoEnv [65]).all (fun w => decide (w ≤ 6)) = true := by decide +kernel
    have h2 : ((columnState plainFace).log.s.measureWidth demoEnv [66]).all (fun w => decide (w ≤ 6)) = true := by decide +kernel
    rcases ht c hc with rfl | rfl | rfl
    · rw [hm] at h1; exact le_trans (by simpa using h1) hw
    · rw [hm] at h2; exact le_trans (by simpa using h2) hw
    · exact absurd rfl h10

end Verif.Props
