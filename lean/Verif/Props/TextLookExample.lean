import Verif.Props.TextLook
import Verif.Props.TypesetExample
/- A program that chooses colours, sizes and places for text. -/
set_option maxRecDepth 10000
namespace Verif.Props
open Doc Typeset Viewer Paint Objects

def lookProgram : List Typeset.Call :=
  [.addFont 1 0 face, .other (.addPage 800), .other (.setFont 1 0 10), .other (.plain (.setTextColour (.rgb 255 0 51))), .text [66],
    .other (.plain (.setCharSpacing 2)), .other (.plain (.setFontSize 12)), .other (.plain (.setXY 30 40)),
    .cellWithOption (some { w := 100, h := 20 }) [65, 66] { align := 3 } none, .other (.addPage 400),
    .other (.plain (.setTextColour (.cmyk 100 0 50 0))), .text [65]]

def lookResult : Typeset.St × List Program.Call :=
  (Typeset.steps demoEnv (Typeset.start false 10 10) lookProgram).getD (Typeset.start false 0 0, [])

theorem look_run : Typeset.steps demoEnv (Typeset.start false 10 10) lookProgram = some (lookResult.1, lookResult.2) := by
  have h : (Typeset.steps demoEnv (Typeset.start false 10 10) lookProgram).isSome = true := by decide +kernel
  obtain ⟨s, hs⟩ := Option.isSome_iff_exists.1 h
  rw [lookResult, hs]; rfl

def lookEnv : Objects.Env :=
  { sampleEnv with
    fontFile := fun i => match lookResult.1.fonts i with
      | some l => match l.subset with | .ok b => (b, b.length) | .error _ => ([], 0)
      | none => ([], 0)
    widths := fun i => match lookResult.1.fonts i with | some l => l.widths | none => []
    cmap := fun i => match lookResult.1.fonts i with | some l => TextRun.toUnicode l.map | none => []
    desc := fun i => match lookResult.1.fonts i with | some l => l.desc | none => sampleEnv.desc i
    render := Program.render (lookResult.1.env demoEnv) lookResult.2 lookResult.1.prog
    key := none
    info := none }

def lookDoc : Doc := exec lookResult.1.prog.doc [.compile]

theorem look_ok : ∀ x ∈ lookProgram, x.Ok := by
  intro x hx
  simp [lookProgram] at hx
  rcases hx with rfl | rfl | rfl | rfl | rfl | rfl | rfl | rfl | rfl | rfl | rfl | rfl <;> simp [Typeset.Call.Ok, IsScalar, face]

theorem look_fonts : ∀ i l, lookResult.1.fonts i = some l → ∃ b, l.subset = .ok b ∧ b.length < 2 ^ 32 := by
  intro i l hl
  have hb := (steps_sim lookProgram _ _ _ (inv_start demoEnv false 10 10) look_ok look_run).1.bound i l hl
  have hn : lookResult.1.prog.doc.objs.length ≤ 20 := by decide +kernel
  have hall : ∀ i < 20, (match lookResult.1.fonts i with
      | none => true
      | some l => match l.subset with | .ok b => decide (b.length < 2 ^ 32) | .error _ => false) = true := by decide +kernel
  have := hall i (by omega)
  rw [hl] at this
  simp only at this
  split at this
  · next b hb => exact ⟨b, hb, by simpa using this⟩
  · simp at this

/-- The hypotheses of `text_look_in_file` hold for it. -/
theorem look_printed : Printed lookEnv demoEnv false 10 10 lookProgram lookResult.1 lookResult.2 lookDoc ⟨toyMd5, none, some⟩ where
  run := look_run
  render := rfl
  doc := rfl
  fonts := by
    intro i l hl
    obtain ⟨b, hb, hlt⟩ := look_fonts i l hl
    refine ⟨b, hb, hlt, ?_, ?_, ?_, ?_, ?_⟩ <;> simp only [lookEnv, hl, hb]
  ok := look_ok
  faces := by
    intro f st fc hm _
    simp [lookProgram] at hm
    obtain ⟨rfl, rfl, rfl⟩ := hm
    exact ⟨face_good, by decide⟩
  templates := by
    intro sx sy tx ty name hm
    simp [lookProgram] at hm
  base := demo_twoByte
  sound := ⟨fun b => by simp [lookEnv, sampleEnv, toyMd5], fun k hk => by simp [lookEnv] at hk⟩
  names := ⟨sampleEnv_plain.family, sampleEnv_plain.csName, sampleEnv_plain.title, sampleEnv_plain.templates, sampleEnv_plain.template⟩
  info := fun i hi => by simp [lookEnv] at hi
  size := by decide +kernel
  md5 := rfl
  key := rfl
  inflate := fun z hz => by simp [lookEnv, sampleEnv] at hz

theorem look_colours : ∀ x ∈ lookProgram, NoGrey x := by
  intro x hx
  simp [lookProgram] at hx
  rcases hx with rfl | rfl | rfl | rfl | rfl | rfl | rfl | rfl | rfl | rfl | rfl | rfl <;> trivial

/-- The first character of the second cell: 12 points, 2 units apart, in the colour set before it. -/
example : ∃ pages, view ⟨toyMd5, none, some⟩ (file lookEnv lookDoc) = some pages ∧ ∀ page o, pages[0]? = some (page, o) →
    ∃ x, (letters {} [] .away o)[1]? = some x ∧ (∃ n s, x.look.font = some (n, s) ∧ ContentReader.Near (1 / 2000) s 12) ∧
      ContentReader.Near (1 / 2000) x.look.spacing 2 ∧ ContentReader.NearColour x.look.fill (.rgb 1 0 (1 / 5)) := by
  obtain ⟨pages, h1, -, h3⟩ := text_look_in_file look_printed look_colours
  refine ⟨pages, h1, fun page o hp => ?_⟩
  have h := h3 0 page o hp
  rw [Nat.zero_add] at h
  obtain ⟨i, hi, e1, e2, e3⟩ : ∃ i, (inked 1 0 {} none lookProgram)[1]? = some i ∧ i.size = 12 ∧ i.spacing = 2 ∧ i.colour = some (.rgb (255 / 255) (0 / 255) (51 / 255)) :=
    ⟨_, rfl, rfl, rfl, rfl⟩
  obtain ⟨hlen, hget⟩ := List.forall₂_iff_get.1 h
  obtain ⟨hlt, hi⟩ := List.getElem?_eq_some_iff.1 hi
  refine ⟨_, List.getElem?_eq_getElem (by omega), ?_⟩
  have := (hget 1 (by omega) hlt).1
  simp only [List.get_eq_getElem] at this
  rw [hi] at this
  obtain ⟨a1, a2, a3⟩ := this
  rw [e1] at a1
  rw [e2, show Units.toPoints demoEnv.cfg 2 = 2 by decide +kernel] at a2
  have := a3 _ e3
  exact ⟨a1, a2, by simpa using (by norm_num at this ⊢; exact this)⟩

end Verif.Props
