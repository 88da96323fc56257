import Verif.Props.TypesetMeasureExample
import Verif.Props.TypesetRuns
/- C67 on a concrete program with a concrete font. -/
set_option maxRecDepth 10000
namespace Verif.Props
open Doc Objects ObjectValue PdfObject FileReader Viewer Typeset CmapSpec FontFile
open TTF (u16_ok u32_ok)

/-- The hypotheses of `kerning_in_file` hold for the program. -/
example : ∃ pages, view ⟨toyMd5, none, some⟩ (file typeEnv typeDoc) = some pages ∧ pages.length = 1 ∧
    ∀ (k : Nat) page o, pages[k]? = some (page, o) → ∃ groups, groups.flatten = wishes (k + 1) 0 [] none typeProgram ∧
      List.Forall₂ (fun r ws => ∃ face, (∀ w ∈ ws, w.face = face) ∧ Kerned face none (ws.map (·.char)) r.2) (runs none [] o) groups := by
  refine kerning_in_file type_printed ?_ ?_
  · intro x hx
    simp [typeProgram] at hx
    rcases hx with rfl | rfl | rfl | rfl <;> trivial
  · intro f st fc hm _ _
    simp [typeProgram] at hm
    obtain ⟨rfl, rfl, rfl⟩ := hm
    exact face_kern

theorem face_em : UnitsPerEm faceFile 2048 :=
  ⟨364, 54, face_table (lit "head") ⟨1653491721, 364, 54⟩ (by decide +kernel), u16_ok.1 (by decide +kernel)⟩

theorem face_pair : PairKern face (some (65, 1)) (66, 2) (-39) := by
  simp only [PairKern, show face.useKerning = true from rfl, if_true]
  exact ⟨-80, 2048, .inl ⟨468, 0, ⟨24, face_table (lit "kern") ⟨655303, 468, 24⟩ (by decide +kernel), u16_ok.1 (by decide +kernel)⟩, 1,
    u16_ok.1 (by decide +kernel), by omega, u16_ok.1 (by decide +kernel), u16_ok.1 (by decide +kernel), 65456, u16_ok.1 (by decide +kernel), by decide⟩, face_em, by decide⟩

/-- `AB` in this font is the array `[<0001> 39 <0002>]`. -/
example : Kerned face none [65, 66] [.code 1, .adjust 39, .code 2] := by
  have g1 : Gives faceFile 65 1 := face_own _ _ (by decide +kernel)
  have g2 : Gives faceFile 66 2 := face_own _ _ (by decide +kernel)
  exact .cons (k := 0) (.inl ⟨⟨_, g1⟩, rfl⟩) (.own g1) rfl (.cons (k := -39) (.inl ⟨⟨_, g2⟩, rfl⟩) (.own g2) face_pair .nil)

/-- ... and no other: the array of the model for it. -/
example : (typeResult.1.fonts 8).map (fun l => (TextRun.tjLoop l.font.run none (0, 0) (TextRun.withIndex 0 [65, 66])).map Content.tjItem) =
    some [.code 1, .adjust 39, .code 2] := by decide +kernel

/-- The pen moves by 537 - 39 + 585. -/
example : PenMoves faceFile [.code 1, .adjust 39, .code 2] 1083 := by
  have w : ∀ g v, v < 65536 → g < 3 → TTF.u16 faceFile (456 + 4 * min g 2) = .ok v → PdfWidth faceFile g (v * 1000 / 2048) := by
    intro g v _ _ h
    exact ⟨2048, v, face_em, ⟨420, 36, 456, 12, 3, face_table (lit "hhea") ⟨52560175, 420, 36⟩ (by decide +kernel), u16_ok.1 (by decide +kernel), by omega,
      face_table (lit "hmtx") ⟨216268800, 456, 12⟩ (by decide +kernel), u16_ok.1 h⟩, rfl⟩
  exact .code (w 1 1100 (by omega) (by omega) (by decide +kernel)) (.adjust (k := 39) (.code (w 2 1200 (by omega) (by omega) (by decide +kernel)) .nil))

end Verif.Props
