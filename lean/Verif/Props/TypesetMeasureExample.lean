import Verif.Props.TypesetExample
import Verif.Props.TypesetMeasure
/- C65 on a concrete program with a concrete font. -/
set_option maxRecDepth 10000
namespace Verif.Props
open Typeset CmapSpec FontFile
open TTF (u16_ok u32_ok)

theorem face_kern_at {k kl : Nat} (h : HasTable faceFile (lit "kern") k kl) : k = 468 :=
  (Embed.HasTable_fun face_distinct h (face_table (lit "kern") ⟨655303, 468, 24⟩ (by decide +kernel))).1

/-- The only entry of the kerning table. -/
theorem face_kern_entry {i l r : Nat} {v : Int} (h : KernEntry faceFile 468 i l r v) : i = 0 ∧ l = 1 ∧ r = 2 ∧ v = -80 := by
  obtain ⟨n, h1, h2, h3, h4, x, h5, h6⟩ := h
  have h1 := u16_ok.2 h1
  rw [show TTF.u16 faceFile (468 + 10) = .ok 1 by decide +kernel] at h1
  cases h1
  obtain rfl : i = 0 := by omega
  have h3 := u16_ok.2 h3
  have h4 := u16_ok.2 h4
  have h5 := u16_ok.2 h5
  rw [show TTF.u16 faceFile (468 + 18 + 6 * 0) = .ok 1 by decide +kernel] at h3
  rw [show TTF.u16 faceFile (468 + 18 + 6 * 0 + 2) = .ok 2 by decide +kernel] at h4
  rw [show TTF.u16 faceFile (468 + 18 + 6 * 0 + 4) = .ok 65456 by decide +kernel] at h5
  cases h3; cases h4; cases h5
  exact ⟨rfl, rfl, rfl, by rw [h6]; decide⟩

theorem face_kern : GoodKern faceFile where
  one := by
    intro k kl h
    obtain rfl := face_kern_at h
    exact ⟨_, h, u16_ok.1 (by decide +kernel)⟩
  unique := by
    rintro k i j l r v w ⟨kl, h, -⟩ h1 h2
    obtain rfl := face_kern_at h
    rw [(face_kern_entry h1).2.2.2, (face_kern_entry h2).2.2.2]

/-- Widths 537 and 585, kerning -39 (in thousandths), size 10. -/
theorem type_width : typeResult.1.measureWidth demoEnv [65, 66] = some (1083 / 100) := by decide +kernel

/-- (700 + 150) / 2048 of 10 points. -/
theorem type_height : typeResult.1.measureHeight demoEnv [65, 66] = some (8500 / 2048) := by decide +kernel

/-- The hypotheses of `measured_width` and `measured_height` hold for the program; the texts have these measures. -/
example : (∃ fc space n, (setting typeProgram).face = some fc ∧ Measures fc space none [65, 66] n ∧
      SpaceFor fc.file (setting typeProgram).size (Units.toPoints demoEnv.cfg (setting typeProgram).spacing) space ∧
      (1083 / 100 : ℚ) = Units.fromPoints demoEnv.cfg (n * ((setting typeProgram).size / 1000))) ∧
    ∃ fc u asc desc, (setting typeProgram).face = some fc ∧ UnitsPerEm fc.file u ∧ Metric fc.file "OS/2" 68 asc ∧
      Metric fc.file "OS/2" 70 desc ∧ (8500 / 2048 : ℚ) = Units.fromPoints demoEnv.cfg ((asc - desc) / u * (setting typeProgram).size) := by
  have hf : ∀ f st fc, Typeset.Call.addFont f st fc ∈ typeProgram → fc = face ∧ st = 0 := by
    intro f st fc hm
    simp [typeProgram] at hm
    exact ⟨hm.2.2, hm.2.1⟩
  refine ⟨measured_width type_run type_ok ?_ ?_ type_width, measured_height type_run type_ok ?_ ?_ type_height⟩
  · intro f st fc hm _
    obtain ⟨rfl, rfl⟩ := hf f st fc hm
    exact ⟨face_good, fun _ => face_kern, by decide⟩
  · simp [IsScalar]
  · intro f st fc hm _
    obtain ⟨rfl, rfl⟩ := hf f st fc hm
    exact ⟨face_good, by decide⟩
  · simp [IsScalar]

/-- ... and the specification gives the first for it: 537 for `A`, 585 - 39 for `B`. -/
example : Measures face 0 none [65, 66] 1083 := by
  have g1 : Gives faceFile 65 1 := face_own _ _ (by decide +kernel)
  have g2 : Gives faceFile 66 2 := face_own _ _ (by decide +kernel)
  have em : UnitsPerEm faceFile 2048 := ⟨364, 54, face_table (lit "head") ⟨1653491721, 364, 54⟩ (by decide +kernel), u16_ok.1 (by decide +kernel)⟩
  have w : ∀ g v, v < 65536 → g < 3 → TTF.u16 faceFile (456 + 4 * min g 2) = .ok v → PdfWidth faceFile g (v * 1000 / 2048) := by
    intro g v _ _ h
    exact ⟨2048, v, em, ⟨420, 36, 456, 12, 3, face_table (lit "hhea") ⟨52560175, 420, 36⟩ (by decide +kernel), u16_ok.1 (by decide +kernel), by omega,
      face_table (lit "hmtx") ⟨216268800, 456, 12⟩ (by decide +kernel), u16_ok.1 h⟩, rfl⟩
  have k : PairKern face (some (65, 1)) (66, 2) (-39) := by
    simp only [PairKern, show face.useKerning = true from rfl, if_true]
    refine ⟨-80, 2048, .inl ⟨468, 0, ⟨24, face_table (lit "kern") ⟨655303, 468, 24⟩ (by decide +kernel), u16_ok.1 (by decide +kernel)⟩, 1,
      u16_ok.1 (by decide +kernel), by omega, u16_ok.1 (by decide +kernel), u16_ok.1 (by decide +kernel), 65456, u16_ok.1 (by decide +kernel), by decide⟩, em, by decide⟩
  have := Measures.cons (f := face) (space := 0) (left := none) (k := 0) (.inl ⟨⟨_, g1⟩, rfl⟩) (.own g1) (w 1 1100 (by omega) (by omega) (by decide +kernel)) rfl
    (.cons (.inl ⟨⟨_, g2⟩, rfl⟩) (.own g2) (w 2 1200 (by omega) (by omega) (by decide +kernel)) k .nil)
  exact this

/-- The font file with a kerning table of two subtables: the first has the pair of glyphs 1 and 2, the second has none. -/
def kernFile : Bytes :=
  faceFile.take 116 ++ [0, 0, 2, 32, 0, 0, 0, 38] ++ faceFile.drop 124 ++
    [0, 0, 0, 2, 0, 0, 0, 20, 0, 1, 0, 1, 0, 6, 0, 0, 0, 0, 0, 1, 0, 2, 255, 176, 0, 0, 0, 14, 0, 1, 0, 0, 0, 0, 0, 0, 0, 0]

def kernFace : Face := { file := kernFile, useKerning := true }

/-- The width of a text in it, at size 10. -/
def kernWidth (t : List Nat) : Option ℚ :=
  (Typeset.steps demoEnv (Typeset.start false 10 10) [.addFont 1 0 kernFace, .other (.addPage 800), .other (.setFont 1 0 10)]).bind
    fun p => p.1.measureWidth demoEnv t

/-- **C65** fails for a kerning table of several subtables: the pairs of the first are lost, `A` and `B` are set without kerning. -/
theorem kern_subtables_fails : (∃ l, HasTable kernFile (lit "kern") 544 l) ∧ KernEntry kernFile 544 0 1 2 (-80) ∧
    kernWidth [65, 66] = some (1122 / 100) ∧ 1122 = 537 + 585 := by
  refine ⟨⟨38, 11, 6, u16_ok.1 (by decide +kernel), by omega, by decide +kernel, u32_ok.1 (by decide +kernel), u32_ok.1 (by decide +kernel)⟩, ?_, by decide +kernel, rfl⟩
  exact ⟨1, u16_ok.1 (by decide +kernel), by omega, u16_ok.1 (by decide +kernel), u16_ok.1 (by decide +kernel), 65456, u16_ok.1 (by decide +kernel), by decide⟩

end Verif.Props
