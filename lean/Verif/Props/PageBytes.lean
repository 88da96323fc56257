import Verif.Lemmas.Content.NearRun
import Verif.Props.Balance
/- C53, C54: the bytes of a page's content stream. -/
namespace Verif.Props
open Content Paint Drawing ContentReader

/-- The template calls of a history use names with the property `Q`. -/
def TemplatesAre (Q : Bytes → Prop) (calls : List Call) : Prop :=
  ∀ c ∈ calls, ∀ sx sy tx ty name, c = Call.template sx sy tx ty name → Q name

private def TplOK (Q : Bytes → Prop) (i : Item) : Prop := ∀ h sx sy tx ty name, i = .template h sx sy tx ty name → Q name

private theorem mem_set_items {pages : List (List Item)} {k : Nat} {items : List Item} {P : Item → Prop}
    (h : ∀ p ∈ pages, ∀ i ∈ p, P i) (hi : ∀ i ∈ items, P i) : ∀ p ∈ pages.set k items, ∀ i ∈ p, P i := by
  intro p hp i hip
  rcases List.mem_or_eq_of_mem_set hp with hp | rfl
  · exact h p hp i hip
  · exact hi i hip

private theorem tpl_step {e : Env} {Q : Bytes → Prop} {s s' : St} {c : Call} (h : step e s c = some s')
    (hq : ∀ sx sy tx ty name, c = Call.template sx sy tx ty name → Q name)
    (hs : ∀ p ∈ s.pages, ∀ i ∈ p, TplOK Q i) : ∀ p ∈ s'.pages, ∀ i ∈ p, TplOK Q i := by
  have cur : ∀ i ∈ s.pages.getD s.page [], TplOK Q i := by
    intro i hi
    rw [List.getD_eq_getElem?_getD] at hi
    cases hx : s.pages[s.page]? with
    | none => simp [hx] at hi
    | some p => rw [hx] at hi; exact hs p (List.mem_of_getElem? hx) i hi
  have add : ∀ i : Item, TplOK Q i → ∀ p ∈ s.pages.modify s.page (· ++ [i]), ∀ j ∈ p, TplOK Q j := by
    intro i hi
    rw [modify_eq_set]
    refine mem_set_items hs (fun j hj => ?_)
    rw [List.mem_append, List.mem_singleton] at hj
    rcases hj with hj | rfl
    · exact cur j hj
    · exact hi
  have txt : ∀ (t : TextItem) (text : List Nat), s.addText e t text = some s' → ∀ p ∈ s'.pages, ∀ i ∈ p, TplOK Q i := by
    intro t text h
    unfold St.addText at h
    split at h
    · exact absurd h (by simp)
    · next items x y hap =>
      obtain rfl := Option.some.inj h
      obtain ⟨pre, c', t', h1, -, rfl, -⟩ := append_cases hap
      refine mem_set_items hs (fun j hj => ?_)
      rw [List.mem_append, List.mem_singleton] at hj
      rcases hj with hj | rfl
      · refine cur j ?_
        rcases h1 with ⟨h1, _⟩ | ⟨h1, _⟩ <;> rw [h1] <;> simp [hj]
      · intro h sx sy tx ty name hh; exact absurd hh (by simp)
  cases c with
  | addPage x =>
    simp only [step, Option.some.injEq] at h; subst h
    intro p hp i hi
    rcases List.mem_append.1 hp with hp | hp
    · exact hs p hp i hi
    · rw [List.mem_singleton] at hp; subst hp; simp at hi
  | setPage n => simp only [step, Option.some.injEq] at h; subst h; split <;> exact hs
  | text t => exact txt _ _ h
  | cell r t => exact txt _ _ h
  | cellWithOption r t o tr => exact txt _ _ h
  | template sx sy tx ty name =>
    simp only [step, Option.some.injEq] at h; subst h
    refine add _ ?_
    intro h' a b c d n hh
    injection hh with _ _ _ _ _ hn
    exact hn ▸ hq _ _ _ _ _ rfl
  | _ =>
    simp only [step, Option.some.injEq] at h; subst h
    first
    | exact hs
    | exact add _ (by intro h' a b c d n hh; exact absurd hh (by simp))

private theorem tpl_steps {e : Env} {Q : Bytes → Prop} : ∀ (calls : List Call) (s s' : St), steps e s calls = some s' →
    TemplatesAre Q calls → (∀ p ∈ s.pages, ∀ i ∈ p, TplOK Q i) → ∀ p ∈ s'.pages, ∀ i ∈ p, TplOK Q i
  | [], s, s', h, _, hs => by
    obtain rfl : s = s' := by simpa [steps] using h
    exact hs
  | c :: calls, s, s', h, hq, hs => by
    simp only [steps] at h
    obtain ⟨s1, h1, h2⟩ := Option.bind_eq_some_iff.1 h
    exact tpl_steps calls s1 s' h2 (fun x hx => hq x (by simp [hx]))
      (tpl_step h1 (hq c (by simp)) hs)

private theorem tpl_page {e : Env} {Q : Bytes → Prop} {height ml mt : ℚ} {calls : List Call} {s : St}
    (h : steps e (start height ml mt) calls = some s) (hq : TemplatesAre Q calls) (n : Nat) :
    ∀ i ∈ s.pages.getD n [], TplOK Q i := by
  intro i hi
  have := tpl_steps calls _ s h hq (by simp [start])
  rw [List.getD_eq_getElem?_getD] at hi
  cases hx : s.pages[n]? with
  | none => simp [hx] at hi
  | some p => rw [hx] at hi; exact this p (List.mem_of_getElem? hx) i hi

private theorem page_good {e : Env} {height ml mt : ℚ} {calls : List Call} {s : St}
    (h : steps e (start height ml mt) calls = some s) (hf : ∀ n, TwoByte (e.fonts n))
    (hq : TemplatesAre TemplateName calls) (n : Nat) :
    Good (writeItems e (s.pages.getD n [])).1 (pageOps e (s.pages.getD n [])) := by
  refine good_page e _ (fun i hi => ?_)
  have := tpl_page h hq n i hi
  cases i with
  | text t => exact hf _
  | template a b c d f name => exact this _ _ _ _ _ _ rfl
  | _ => trivial

/-- **C53** The bytes written for a page are a content stream that reads back as the page's operators, in order, with
nothing added or lost: the same operators with the same resource names, glyph codes and text adjustments, and numbers that
differ only by rounding (`NearOp`: half a unit of the last decimal written).  For every sequence of calls, provided that
glyph numbers fit in two bytes and that imported templates do not have the name of an image. -/
theorem page_bytes_read (e : Env) (height ml mt : ℚ) (calls : List Call) (s : St)
    (h : steps e (start height ml mt) calls = some s) (hf : ∀ n, TwoByte (e.fonts n))
    (hq : TemplatesAre TemplateName calls) (n : Nat) :
    ∃ o, operators (writeItems e (s.pages.getD n [])).1 = some o ∧
      List.Forall₂ NearOp o (pageOps e (s.pages.getD n [])) := by
  obtain ⟨o, h1, h2⟩ := page_good h hf hq n
  exact ⟨o, h1.operators, h2⟩

/-- **C53** What is read from the bytes paints the same marks as the exact operators: if executing the page's operators
paints some marks, then executing what the bytes say paints as many, of the same kinds, in the same order, with the same
glyph codes, images and templates. -/
theorem page_bytes_paint (e : Env) (wd : Widths) (height ml mt : ℚ) (calls : List Call) (s : St)
    (h : steps e (start height ml mt) calls = some s) (hf : ∀ n, TwoByte (e.fonts n))
    (hq : TemplatesAre TemplateName calls) (n : Nat) (r : Reader)
    (hr : run wd {} (pageOps e (s.pages.getD n [])) = some r) :
    ∃ o r', operators (writeItems e (s.pages.getD n [])).1 = some o ∧ run wd {} o = some r' ∧
      r'.marks.map kindOf = r.marks.map kindOf := by
  obtain ⟨o, h1, h2⟩ := page_good h hf hq n
  obtain ⟨r', e1, e2⟩ := run_alike (alike_refl _) h2 hr
  exact ⟨o, r', h1.operators, e1, e2.marks.symm⟩

/-- **C33** **C53** The bytes of every page are a complete content stream: read by the lexical rules, every operator is
allowed where it stands, every text object and path is closed and every `q` has its `Q`.  As in `page_complete`, on a page
where what is saved is restored, and polygons have points. -/
theorem page_bytes_complete (e : Env) (wd : Widths) (height ml mt : ℚ) (calls : List Call) (s : St)
    (h : steps e (start height ml mt) calls = some s) (hf : ∀ n, TwoByte (e.fonts n))
    (hq : TemplatesAre TemplateName calls) (n : Nat) (hnest : Nested (callsOn n 0 1 calls))
    (hpts : ∀ c ∈ calls, HasPoints c) :
    ∃ o, operators (writeItems e (s.pages.getD n [])).1 = some o ∧ Complete wd o := by
  obtain ⟨r, h1, h2, h3⟩ := page_complete e wd height ml mt calls s h n hnest hpts
  obtain ⟨o, g1, g2⟩ := page_good h hf hq n
  obtain ⟨r', e1, e2⟩ := run_alike (alike_refl _) g2 h1
  refine ⟨o, g1.operators, r', e1, levelKind_page e2.level h2, ?_⟩
  have := e2.stack
  rw [h3] at this
  simpa using this.symm

/-- **C53** The colour components written in three decimals determine the components given: no two of the 256 values of
red, green or blue are written alike. -/
theorem colour_recovered (v : ℚ) (r : Nat) (h : Near (1 / 2000) v (r / 255)) : ⌊255 * v + 1 / 2⌋ = r := by
  unfold Near at h
  rw [abs_le] at h
  rw [Int.floor_eq_iff]
  push_cast
  constructor <;> linarith [h.1, h.2]

/-- **C53** (counterexample) The condition on template names is needed: a template named like an image is read as that
image. -/
theorem template_named_like_image_fails : ∃ (e : Env) (s : St),
    steps e (start 842 0 0) [.template 1 1 0 0 (lit "/I3")] = some s ∧
    (operators (writeItems e (s.pages.getD 0 [])).1).map (fun o => o.any (· == .image 3)) = some true ∧
    (pageOps e (s.pages.getD 0 [])).any (· == .image 3) = false := by
  refine ⟨demoEnv, _, rfl, ?_, ?_⟩ <;> decide +kernel

/-- A font with a glyph number that does not fit. -/
def bigEnv : Env := { demoEnv with fonts := fun _ => { demoRunFont with run := { demoRunFont.run with map := ⟨[(65, 0)], [65], [65537]⟩ } } }

/-- **C53** (counterexample) The condition on glyph numbers is needed: glyph 65537 is written with five digits, and two
other glyphs are read. -/
theorem glyph_number_fails : ∃ (e : Env) (s : St),
    steps e (start 842 0 0) [.setFont 0 0 10, .text [65]] = some s ∧
    (operators (writeItems e (s.pages.getD 0 [])).1).map (fun o => o.any (· == .TJ [.code 65537])) ≠ some true ∧
    (pageOps e (s.pages.getD 0 [])).any (· == .TJ [.code 65537]) = true := by
  have hs : (steps bigEnv (start 842 0 0) [.setFont 0 0 10, .text [65]]).isSome = true := by decide +kernel
  obtain ⟨s, hs⟩ := Option.isSome_iff_exists.1 hs
  refine ⟨bigEnv, s, hs, ?_, ?_⟩
  · have : (steps bigEnv (start 842 0 0) [.setFont 0 0 10, .text [65]]).map (fun s =>
        (operators (writeItems bigEnv (s.pages.getD 0 [])).1).map (fun o => o.any (· == .TJ [.code 65537]))) ≠
        some (some true) := by decide +kernel
    rw [hs] at this
    simpa using this
  · have : (steps bigEnv (start 842 0 0) [.setFont 0 0 10, .text [65]]).map (fun s =>
        (pageOps bigEnv (s.pages.getD 0 [])).any (· == .TJ [.code 65537])) = some true := by decide +kernel
    rw [hs] at this
    simpa using this

/-! ### Writing again -/

/-- The items after the document has been written `k` times. -/
def afterWrites (e : Env) : Nat → List Item → List Item
  | 0, items => items
  | k + 1, items => afterWrites e k (writeItems e items).2

private theorem afterWrite_same {items : List Item} (h : ∀ i ∈ items, TplOK (fun _ => False) i) : items.map afterWrite = items := by
  induction items with
  | nil => rfl
  | cons i items ih =>
    rw [List.map_cons, ih (fun j hj => h j (by simp [hj]))]
    have := h i (by simp)
    cases i with
    | template a b c d f name => exact (this _ _ _ _ _ _ rfl).elim
    | _ => rfl

/-- **C54** A page without imported templates is written the same every time, however often the document is written. -/
theorem written_again (e : Env) (height ml mt : ℚ) (calls : List Call) (s : St)
    (h : steps e (start height ml mt) calls = some s) (hq : TemplatesAre (fun _ => False) calls) (n k : Nat) :
    writeItems e (afterWrites e k (s.pages.getD n [])) = writeItems e (s.pages.getD n []) := by
  have hp := tpl_page h hq n
  have : ∀ k, afterWrites e k (s.pages.getD n []) = s.pages.getD n [] := by
    intro k
    induction k with
    | zero => rfl
    | succ k ih => simp only [afterWrites, writeItems]; rw [afterWrite_same hp]; exact ih
  rw [this]

/-- **C54** An imported template moves by the height of the page each time the document is written: the `k + 1`st writing
draws it `k` page heights above where the first does. -/
theorem template_moves (e : Env) (h sx sy tx ty : ℚ) (name : List UInt8) (k : Nat) :
    pageOps e (afterWrites e k [.template h sx sy tx ty name]) =
      [.q, .J 0, .w 1, .j 0, .strokeColour (.gray 0), .fillColour (.gray 0), .q, .cm ⟨sx, 0, 0, sy, tx, ty + h + k * h⟩,
       .template name, .Q, .Q] := by
  induction k generalizing ty with
  | zero => simp [afterWrites, pageOps, ops]
  | succ k ih =>
    simp only [afterWrites, writeItems, List.map_cons, List.map_nil, afterWrite]
    rw [ih]
    push_cast
    have : ty + h + h + k * h = ty + h + (k + 1) * h := by ring
    rw [this]

/-- **C54** (counterexample) Writing a document with an imported template again writes another page. -/
theorem written_again_fails : ∃ (e : Env) (s : St),
    steps e (start 842 0 0) [.template 1 1 0 0 (lit "/GOFPDITPL0")] = some s ∧
    (writeItems e (afterWrites e 1 (s.pages.getD 0 []))).1 ≠ (writeItems e (s.pages.getD 0 [])).1 := by
  refine ⟨demoEnv, _, rfl, ?_⟩
  decide +kernel

/-! ### The hypotheses hold for a non-trivial history -/

theorem demo_twoByte (n : Nat) : TwoByte (demoEnv.fonts n) := by
  intro r g hg
  have hm : demoRunFont.run.map.val r = some g := hg
  by_cases h65 : r = 65
  · subst h65; simp [TTF.CharMap.val, TTF.CharMap.index, demoRunFont] at hm; omega
  · by_cases h66 : r = 66
    · subst h66; simp [TTF.CharMap.val, TTF.CharMap.index, demoRunFont] at hm; omega
    · have a65 : (65 == r) = false := by simpa using Ne.symm h65
      have a66 : (66 == r) = false := by simpa using Ne.symm h66
      simp [TTF.CharMap.val, TTF.CharMap.index, demoRunFont, List.find?, a65, a66] at hm

def byteCalls : List Call :=
  [.setFont 0 4 10, .setTextColour (.rgb 255 0 128), .text [65, 66], .rotate 30 5 5, .line 0 0 1 1, .rotateReset,
   .setCustomLineType [1 / 3, 2] 0, .polygon [(0, 0), (10, 1 / 7), (3, 4)] .both,
   .image ⟨false, 0, 0, true, false, 4, 1, 2, 0, { w := 10, h := 20 }, some ⟨1, 1, 5, 5⟩, [2]⟩, .template 1 1 0 0 (lit "/GOFPDITPL0"),
   .setColourSpace 0, .cellWithOption (some { w := 100, h := 20 }) [65] { align := 16, border := 15, ext := [1] } none]

example : ∃ s, steps demoEnv (start 842 10 10) byteCalls = some s ∧ (∀ n, TwoByte (demoEnv.fonts n)) ∧
    TemplatesAre TemplateName byteCalls ∧ Nested (callsOn 0 0 1 byteCalls) ∧ ∀ c ∈ byteCalls, HasPoints c := by
  have h : (steps demoEnv (start 842 10 10) byteCalls).isSome = true := by decide +kernel
  obtain ⟨s, hs⟩ := Option.isSome_iff_exists.1 h
  refine ⟨s, hs, demo_twoByte, ?_, by simp [Nested, callsOn, byteCalls, depth], by simp [byteCalls, HasPoints]⟩
  intro c hc sx sy tx ty name hn
  subst hn
  simp [byteCalls] at hc
  obtain ⟨-, -, -, -, rfl⟩ := hc
  exact ⟨lit "GOFPDITPL0", by decide +kernel, by decide +kernel, by decide +kernel⟩

/-- The bytes of a line, as the program writes them. -/
example : (writeItems demoEnv [.line 842 0 (1 / 3) 100 (200 + 1 / 200) [3]]).1 =
    lit "q\n/GS3 gs\n0.00 841.67 m 100.00 642.00 l S\nQ\n" := by decide +kernel

end Verif.Props
