import Verif.Props.TextTint
import Verif.Props.TypesetExample
/- A program that chooses transparencies for text; its second SetFont asks for a font that was not added. -/
set_option maxRecDepth 10000
namespace Verif.Props
open Doc Typeset Viewer Paint Objects

def tintProgram : List Typeset.Call :=
  [.addFont 1 0 face, .other (.addPage 800), .other (.setFont 1 0 10), .text [66], .other (.setFont 9 0 20),
    .other (.setTransparency { alpha3 := 500, isOne := false, blend := 1 }),
    .other (.plain (.setXY 30 40)), .cellWithOption (some { w := 100, h := 20 }) [65] {} none,
    .cellWithOption none [66] {} (some { alpha3 := 250, isOne := false, blend := 3 }), .other (.addPage 400), .text [65]]

def tintResult : Typeset.St × List Program.Call :=
  (Typeset.steps demoEnv (Typeset.start false 10 10) tintProgram).getD (Typeset.start false 0 0, [])

theorem tint_run : Typeset.steps demoEnv (Typeset.start false 10 10) tintProgram = some (tintResult.1, tintResult.2) := by
  have h : (Typeset.steps demoEnv (Typeset.start false 10 10) tintProgram).isSome = true := by decide +kernel
  obtain ⟨s, hs⟩ := Option.isSome_iff_exists.1 h
  rw [tintResult, hs]; rfl

def tintEnv : Objects.Env :=
  { sampleEnv with
    fontFile := fun i => match tintResult.1.fonts i with
      | some l => match l.subset with | .ok b => (b, b.length) | .error _ => ([], 0)
      | none => ([], 0)
    widths := fun i => match tintResult.1.fonts i with | some l => l.widths | none => []
    cmap := fun i => match tintResult.1.fonts i with | some l => TextRun.toUnicode l.map | none => []
    desc := fun i => match tintResult.1.fonts i with | some l => l.desc | none => sampleEnv.desc i
    render := Program.render (tintResult.1.env demoEnv) tintResult.2 tintResult.1.prog
    key := none
    info := none }

def tintDoc : Doc := exec tintResult.1.prog.doc [.compile]

theorem tint_ok : ∀ x ∈ tintProgram, x.Ok := by
  intro x hx
  simp [tintProgram] at hx
  rcases hx with rfl | rfl | rfl | rfl | rfl | rfl | rfl | rfl | rfl | rfl | rfl <;> simp [Typeset.Call.Ok, IsScalar, face]

theorem tint_fonts : ∀ i l, tintResult.1.fonts i = some l → ∃ b, l.subset = .ok b ∧ b.length < 2 ^ 32 := by
  intro i l hl
  have hb := (steps_sim tintProgram _ _ _ (inv_start demoEnv false 10 10) tint_ok tint_run).1.bound i l hl
  have hn : tintResult.1.prog.doc.objs.length ≤ 20 := by decide +kernel
  have hall : ∀ i < 20, (match tintResult.1.fonts i with
      | none => true
      | some l => match l.subset with | .ok b => decide (b.length < 2 ^ 32) | .error _ => false) = true := by decide +kernel
  have := hall i (by omega)
  rw [hl] at this
  simp only at this
  split at this
  · next b hb => exact ⟨b, hb, by simpa using this⟩
  · simp at this

/-- The hypotheses of `text_tint_in_file` hold for it. -/
theorem tint_printed : Printed tintEnv demoEnv false 10 10 tintProgram tintResult.1 tintResult.2 tintDoc ⟨toyMd5, none, some⟩ where
  run := tint_run
  render := rfl
  doc := rfl
  fonts := by
    intro i l hl
    obtain ⟨b, hb, hlt⟩ := tint_fonts i l hl
    refine ⟨b, hb, hlt, ?_, ?_, ?_, ?_, ?_⟩ <;> simp only [tintEnv, hl, hb]
  ok := tint_ok
  faces := by
    intro f st fc hm _
    simp [tintProgram] at hm
    obtain ⟨rfl, rfl, rfl⟩ := hm
    exact ⟨face_good, by decide⟩
  templates := by
    intro sx sy tx ty name hm
    simp [tintProgram] at hm
  base := demo_twoByte
  sound := ⟨fun b => by simp [tintEnv, sampleEnv, toyMd5], fun k hk => by simp [tintEnv] at hk⟩
  names := ⟨sampleEnv_plain.family, sampleEnv_plain.csName, sampleEnv_plain.title, sampleEnv_plain.templates, sampleEnv_plain.template⟩
  info := fun i hi => by simp [tintEnv] at hi
  size := by decide +kernel
  md5 := rfl
  key := rfl
  inflate := fun z hz => by simp [tintEnv, sampleEnv] at hz

theorem tint_sharp : ∀ x ∈ tintProgram, ∀ t ∈ Typeset.settingsOf x, t.sharp := by
  intro x hx
  simp [tintProgram] at hx
  rcases hx with rfl | rfl | rfl | rfl | rfl | rfl | rfl | rfl | rfl | rfl | rfl <;> simp [Typeset.settingsOf, Program.settingsOf, Doc.Tr.sharp]

theorem tint_parted : Parted none none tintProgram := by
  simp [tintProgram, Parted, runAfter, blendAfter, tintOf, isText, boxed, parts, Doc.callSetting, Doc.Tr.wants]

/-- The first page: one opaque character, one in the transparency set before, one in the cell's own.  The second: opaque. -/
example : tinted 1 0 none tintProgram = [none, some (500, 1), some (250, 3)] ∧ tinted 2 0 none tintProgram = [none] := ⟨rfl, rfl⟩

example : ∃ pages, view ⟨toyMd5, none, some⟩ (file tintEnv tintDoc) = some pages ∧ ∀ page o, pages[0]? = some (page, o) →
    ∃ x, (tints [] [] o)[2]? = some x ∧ Tinted (file tintEnv tintDoc) page x.2 (some (250, 3)) := by
  obtain ⟨pages, h1, -, h3⟩ := text_tint_in_file tint_printed tint_sharp tint_parted
  refine ⟨pages, h1, fun page o hp => ?_⟩
  have h := (h3 0 page o hp).2
  obtain ⟨i, hi, e1⟩ : ∃ i, (tinted (0 + 1) 0 none tintProgram)[2]? = some i ∧ i = some (250, 3) := ⟨_, rfl, rfl⟩
  obtain ⟨hlen, hget⟩ := List.forall₂_iff_get.1 h
  obtain ⟨hlt, hi⟩ := List.getElem?_eq_some_iff.1 hi
  refine ⟨_, List.getElem?_eq_getElem (by omega), ?_⟩
  have := hget 2 (by omega) hlt
  simp only [List.get_eq_getElem] at this
  rw [hi, e1] at this
  exact this

end Verif.Props
