import Verif.Props.TypesetAccept
import Verif.Props.TypesetExample
/- C77 on concrete font files. -/
set_option maxRecDepth 10000
namespace Verif.Props
open Typeset FontFile Embed CmapSpec TTF

/-- The font of the examples is complete. -/
example : face.file.length < 2 ^ 62 ∧ DistinctTags face.file ∧ Acceptable face.file face.useKerning :=
  ⟨by decide +kernel, face_distinct, (ok_load (by decide +kernel) face_distinct).1 ⟨_, face_load⟩⟩

/-- The same file for a font with CFF outlines (signature `OTTO`) is refused. -/
def ottoFile : Bytes := lit "OTTO" ++ faceFile.drop 4

theorem otto_distinct : DistinctTags ottoFile := Embed.distinctCheck_ok (by decide +kernel)

example : ottoFile.length < 2 ^ 62 ∧ DistinctTags ottoFile ∧ ¬ Acceptable ottoFile false ∧
    (∀ p l g, HasTable ottoFile (lit "hhea") p l → U16 ottoFile (p + 34) 0 → NumGlyphs ottoFile g → g = 0) := by
  refine ⟨by decide +kernel, otto_distinct, ?_, ?_⟩
  · rintro ⟨⟨⟨-, h⟩, -⟩, -⟩
    revert h; decide +kernel
  · intro p l g ht h0
    have hn : U16 ottoFile 4 11 := u16_ok.1 (by decide +kernel)
    have : HasTable ottoFile (lit "hhea") 420 36 :=
      ⟨11, 4, hn, by omega, by decide +kernel, u32_ok.1 (by decide +kernel), u32_ok.1 (by decide +kernel)⟩
    obtain ⟨rfl, rfl⟩ := HasTable_fun otto_distinct ht this
    have h0 := u16_ok.2 h0
    rw [show u16 ottoFile (420 + 34) = .ok 3 by decide +kernel] at h0
    cases h0

/-- A file that announces no advance width. -/
def noWidths : Face := { file := faceFile.set 455 0 }

/-- **C77** The last hypothesis of `incomplete_font_refused` is needed: on a font file whose `hhea` announces no advance width
(and that is complete otherwise) AddTTFFont panics, in every state of the document. -/
theorem incomplete_font_refused_fails : DistinctTags noWidths.file ∧ ∀ base s family style, Typeset.step base s (.addFont family style noWidths) = none := by
  refine ⟨Embed.distinctCheck_ok (by decide +kernel), ?_⟩
  intro base s family style
  have h : load noWidths.file noWidths.useKerning = .error .panic := by decide +kernel
  simp only [Typeset.step, St.prepare, h]

end Verif.Props
