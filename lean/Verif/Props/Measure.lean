import Verif.Lemmas.Content.Alone
import Verif.Lemmas.Content.Advance
import Verif.Props.Units
import Verif.Props.Balance
/- C39: the measured width is the width drawn. -/
namespace Verif.Props
open Content Paint Drawing
open TextRun (RunFont withIndex sumWidth glyphWidth toPdfUnit kernBefore)
open Units (toPoints fromPoints)

/-- A line of text written by consecutive calls: Cell without rectangle (`true`) or Text. -/
def lineCalls (l : List (Bool × List Nat)) : List Call := l.map fun p => if p.1 then .cell none p.2 else .text p.2

/-- Every text item's number of SetX calls is at most the current one, and its measurements belong to its text. -/
structure Measured (e : Env) (t : TextItem) : Prop where
  ok : ∃ r, createContent (e.fonts t.font) t.text t.fontSize t.charSpacing t.rectangle = some r ∧
    t.cellWidth = r.1 ∧ t.cellHeight = r.2.1 ∧ t.textWidth = r.2.2

theorem extend_measured {e : Env} {c t : TextItem} {text : List Nat} (h : extend e c text = some t) : Measured e t := by
  unfold extend at h
  obtain ⟨r, hr, rfl⟩ := Option.map_eq_some_iff.1 h
  exact ⟨r, hr, rfl, rfl, rfl⟩

theorem steps_measured {e : Env} : ∀ (calls : List Call) (s s' : St), steps e s calls = some s' →
    (∀ p ∈ s.pages, ∀ t, Item.text t ∈ p → Measured e t ∧ t.setXCount ≤ s.cur.setXCount) →
    ∀ p ∈ s'.pages, ∀ t, Item.text t ∈ p → Measured e t ∧ t.setXCount ≤ s'.cur.setXCount := by
  intro calls
  induction calls with
  | nil =>
    intro s s' h hp
    obtain rfl : s = s' := by simpa [steps] using h
    exact hp
  | cons c calls ih =>
    intro s s' h hp
    simp only [steps] at h
    obtain ⟨s1, h1, h2⟩ := Option.bind_eq_some_iff.1 h
    refine ih s1 s' h2 ?_
    have hle : s.cur.setXCount ≤ s1.cur.setXCount := by
      cases c with
      | setPage n => simp only [step, Option.some.injEq] at h1; subst h1; split <;> exact le_refl _
      | text t => obtain ⟨x, y, hx⟩ := addText_cur h1; rw [hx]
      | cell r t => obtain ⟨x, y, hx⟩ := addText_cur h1; rw [hx]
      | cellWithOption r t o tr => obtain ⟨x, y, hx⟩ := addText_cur h1; rw [hx]
      | _ => simp only [step, Option.some.injEq] at h1; subst h1; simp [St.add]
    have lift : ∀ p ∈ s.pages, ∀ t, Item.text t ∈ p → Measured e t ∧ t.setXCount ≤ s1.cur.setXCount :=
      fun p hpm t ht => ⟨(hp p hpm t ht).1, (hp p hpm t ht).2.trans hle⟩
    have cur_page : ∀ t, Item.text t ∈ s.pages.getD s.page [] → Measured e t ∧ t.setXCount ≤ s1.cur.setXCount := by
      intro t ht
      rw [List.getD_eq_getElem?_getD] at ht
      cases hx : s.pages[s.page]? with
      | none => simp [hx] at ht
      | some p => rw [hx] at ht; exact lift p (List.mem_of_getElem? hx) t ht
    cases step_did h1 with
    | addPage x hpg hc =>
      rw [hpg]; intro p hpm t ht
      rw [List.mem_append, List.mem_singleton] at hpm
      rcases hpm with hpm | rfl
      · exact lift p hpm t ht
      · simp at ht
    | setPage k hpg hc => rw [hpg]; exact lift
    | keep _ ha hs hw hpg hc => rw [hpg]; exact lift
    | item _ ha hs hw i hi hpg hc =>
      rw [hpg]; intro p hpm t ht
      rcases List.mem_or_eq_of_mem_set hpm with hpm | rfl
      · exact lift p hpm t ht
      · rw [List.mem_append, List.mem_singleton] at ht
        rcases ht with ht | ht
        · exact cur_page t ht
        · exact absurd ht.symm (hi t)
    | text _ ha hs t cell rect opt ht hqq hadd =>
      have hcur := addText_cur hadd
      unfold St.addText at hadd
      split at hadd
      · exact absurd hadd (by simp)
      · next items x y hap =>
        have hpg : s1.pages = s.pages.set s.page items := by rw [← Option.some.inj hadd]
        rw [hpg]; intro p hpm t1 ht1
        rcases List.mem_or_eq_of_mem_set hpm with hpm | rfl
        · exact lift p hpm t1 ht1
        · obtain ⟨pre, c', t2, hc, hx, rfl, -, -⟩ := append_cases hap
          rw [List.mem_append, List.mem_singleton] at ht1
          have hcount : t2.setXCount = c'.setXCount := by
            unfold extend at hx
            obtain ⟨r, hr, rfl⟩ := Option.map_eq_some_iff.1 hx
            rfl
          rcases ht1 with ht1 | ht1
          · rcases hc with ⟨hpre, -⟩ | ⟨hpre, -, -⟩
            · exact cur_page t1 (by rw [hpre]; simp [ht1])
            · exact cur_page t1 (by rw [hpre]; exact ht1)
          · obtain rfl := Item.text.inj ht1
            refine ⟨extend_measured hx, ?_⟩
            rw [hcount]
            rcases hc with ⟨hpre, -⟩ | ⟨hpre, rfl, -⟩
            · exact (cur_page c' (by rw [hpre]; simp)).2
            · rw [ht]; exact hle

/-- In a reachable document, SetX or SetXY keeps later text from being joined to what is there. -/
theorem fresh_after_set {e : Env} {s : St} (hp : ∀ p ∈ s.pages, ∀ t, Item.text t ∈ p → t.setXCount < s.cur.setXCount) :
    ∀ t : TextItem, t.setXCount = s.cur.setXCount → joinTarget (s.pages.getD s.page []) t = none := by
  intro t ht
  unfold joinTarget
  split
  · next c hl =>
    have hmem : Item.text c ∈ s.pages.getD s.page [] := List.mem_of_getLast? hl
    have : c.setXCount < s.cur.setXCount := by
      rw [List.getD_eq_getElem?_getD] at hmem
      cases hx : s.pages[s.page]? with
      | none => simp [hx] at hmem
      | some p => rw [hx] at hmem; exact hp p (List.mem_of_getElem? hx) c hmem
    rw [if_neg]
    intro hs
    have := (isSame_fields hs).2.2.2.2.2.2.2.1
    omega
  · rfl

/-- The state while a line is being written: its item is the last one of the page and carries all of the line's text. -/
private structure OnLine (e : Env) (s0 s : St) (text : List Nat) : Prop where
  page : s.page < s.pages.length
  item : ∃ pre c, s.pages.getD s.page [] = pre ++ [.text c] ∧ c.text = text ∧ c.x = s0.cur.x ∧ c.rectangle = none ∧
    c.font = s0.cur.font + 1 ∧ c.fontSize = s0.cur.fontSize ∧ c.charSpacing = s0.cur.charSpacing ∧
    (c.opt.float == 0 || has c.opt.float right || !c.isCell) = true ∧ has c.opt.float bottom = false ∧
    ∀ cell rect opt, isSame c (newText s.cur cell rect opt) = true
  cur : ∃ r, createContent (e.fonts (s0.cur.font + 1)) text s0.cur.fontSize s0.cur.charSpacing none = some r ∧
    s.cur = { s0.cur with x := s0.cur.x + r.2.2 }

private theorem createContent_none {f : Font} {text : List Nat} {size cs : ℚ} {r : ℚ × ℚ × ℚ}
    (h : createContent f text size cs none = some r) : r.1 = r.2.2 := by
  unfold createContent at h
  split at h
  · exact absurd h (by simp)
  · simp only [Option.some.injEq] at h; rw [← h]

private theorem line_call (e : Env) (s : St) (p : Bool × List Nat) : ∃ cell opt,
    step e s (if p.1 then .cell none p.2 else .text p.2) = s.addText e (newText s.cur cell none opt) p.2 ∧
      (opt.float == 0 || has opt.float right || !cell) = true ∧ has opt.float bottom = false := by
  cases hb : p.1
  · exact ⟨false, {}, rfl, by decide, by decide⟩
  · exact ⟨true, { align := 8 ||| 4, float := 2 }, rfl, by decide, by decide⟩

private theorem line_first {e : Env} {s s' : St} {p : Bool × List Nat} (hp : s.page < s.pages.length)
    (hf : ∀ t : TextItem, t.setXCount = s.cur.setXCount → joinTarget (s.pages.getD s.page []) t = none)
    (h : step e s (if p.1 then .cell none p.2 else .text p.2) = some s') : OnLine e s s' p.2 := by
  obtain ⟨cell, opt, hst, h1, h2⟩ := line_call e s p
  rw [hst] at h
  unfold St.addText at h
  split at h
  · exact absurd h (by simp)
  next items x y hap =>
  obtain rfl := Option.some.inj h
  obtain ⟨pre, c', t, hc, hx, rfl, hxx, hyy⟩ := append_cases hap
  rcases hc with ⟨hpre, hs⟩ | ⟨hpre, rfl, -⟩
  · have := hf (newText s.cur cell none opt) rfl
    rw [hpre] at this
    simp [joinTarget, hs] at this
  · unfold extend at hx
    obtain ⟨r, hr, rfl⟩ := Option.map_eq_some_iff.1 hx
    have hr' : createContent (e.fonts (s.cur.font + 1)) p.2 s.cur.fontSize s.cur.charSpacing none = some r := by
      simpa [newText] using hr
    have h1' : ((newText s.cur cell none opt).opt.float == 0 || has (newText s.cur cell none opt).opt.float right ||
        !(newText s.cur cell none opt).isCell) = true := h1
    have h2' : has (newText s.cur cell none opt).opt.float bottom = false := h2
    dsimp only at hxx hyy
    rw [h1', if_pos rfl] at hxx
    rw [h2', if_neg (by simp)] at hyy
    refine ⟨by simpa using hp, ⟨pre, _, by dsimp only; rw [getD_set _ _ _ _ hp, if_pos rfl], by simp [newText], rfl, rfl, rfl, rfl,
      rfl, h1, h2, fun cell' rect' opt' => ?_⟩, ⟨r, hr', ?_⟩⟩
    · subst hyy; simp [isSame, newText]
    · rw [hxx, hyy, createContent_none hr']; rfl

private theorem line_next {e : Env} {s0 s s' : St} {text : List Nat} {p : Bool × List Nat} (ho : OnLine e s0 s text)
    (h : step e s (if p.1 then .cell none p.2 else .text p.2) = some s') : OnLine e s0 s' (text ++ p.2) := by
  obtain ⟨hp, ⟨pre0, c, hpg, ht, hx0, hrect, hfont, hsize, hcs, hfl, hbo, hsame⟩, ⟨r0, hr0, hcur⟩⟩ := ho
  obtain ⟨cell, opt, hst, h1, h2⟩ := line_call e s p
  rw [hst] at h
  unfold St.addText at h
  split at h
  · exact absurd h (by simp)
  next items x y hap =>
  obtain rfl := Option.some.inj h
  have hj : joinTarget (s.pages.getD s.page []) (newText s.cur cell none opt) = some c := by
    rw [hpg]; simp [joinTarget, hsame]
  obtain ⟨pre, c', t, hc, hx, rfl, hxx, hyy⟩ := append_cases hap
  rcases hc with ⟨hpre, hs⟩ | ⟨hpre, rfl, hn⟩
  · rw [hpg] at hpre
    obtain ⟨rfl, hcc⟩ := List.append_inj' hpre rfl
    obtain rfl : c = c' := by simpa using hcc
    unfold extend at hx
    obtain ⟨r, hr, rfl⟩ := Option.map_eq_some_iff.1 hx
    have hr' : createContent (e.fonts (s0.cur.font + 1)) (text ++ p.2) s0.cur.fontSize s0.cur.charSpacing none = some r := by
      rw [hfont, hsize, hcs, hrect, ht] at hr; exact hr
    dsimp only at hxx hyy
    rw [hfl, if_pos rfl] at hxx
    rw [hbo, if_neg (by simp)] at hyy
    refine ⟨by simpa using hp, ⟨pre0, { c with text := c.text ++ p.2, cellWidth := r.1, cellHeight := r.2.1, textWidth := r.2.2 },
      by dsimp only; rw [getD_set _ _ _ _ hp, if_pos rfl], by simp [ht], hx0, hrect, hfont, hsize,
      hcs, hfl, hbo, fun cell' rect' opt' => ?_⟩, ⟨r, hr', ?_⟩⟩
    · have := hsame cell' rect' opt'
      subst hyy
      exact this
    · rw [hxx, hyy, hcur, hx0, createContent_none hr']; rfl
  · rw [hj] at hn; simp at hn

/-- **C39** A line written by any number of consecutive Text and Cell calls moves the cursor by exactly the measured width of
the whole text, from any point set by SetXY in any document, in any unit, with kerning and character spacing. -/
theorem line_advances_by_measure (e : Env) (height ml mt : ℚ) (calls : List Call) (s : St)
    (h : steps e (start height ml mt) calls = some s) (x y : ℚ) (line : List (Bool × List Nat)) (hne : line ≠ []) (s' : St)
    (hl : steps e s (.setXY x y :: lineCalls line) = some s') :
    ∃ w, measureTextWidth e s.cur (line.flatMap (·.2)) = some w ∧
      fromPoints e.cfg s'.cur.x = x + w ∧ fromPoints e.cfg s'.cur.y = y := by
  have hpage : ∀ (calls : List Call) (s s' : St), s.page < s.pages.length → steps e s calls = some s' →
      s'.page < s'.pages.length := by
    intro calls
    induction calls with
    | nil => intro s s' hp h; obtain rfl : s = s' := by simpa [steps] using h
             exact hp
    | cons c calls ih =>
      intro s s' hp h
      obtain ⟨s1, h1, h2⟩ := Option.bind_eq_some_iff.1 h
      exact ih s1 s' (did_page h1 hp) h2
  have hp := hpage calls _ s (by simp [start]) h
  have hm := steps_measured calls _ s h (by simp [start])
  simp only [steps, step, Option.bind_some] at hl
  let c1 : Cur := { s.cur with x := toPoints e.cfg x, y := toPoints e.cfg y, setXCount := s.cur.setXCount + 1 }
  let s1 : St := { s with cur := c1 }
  have hfresh := fresh_after_set (e := e) (s := s1) (fun p hpm t ht => Nat.lt_succ_of_le (hm p hpm t ht).2)
  cases line with
  | nil => exact absurd rfl hne
  | cons p line =>
    simp only [lineCalls, List.map_cons, steps] at hl
    obtain ⟨s2, h2, h3⟩ := Option.bind_eq_some_iff.1 hl
    have hfirst := line_first (s := s1) hp hfresh h2
    have hall : ∀ (line : List (Bool × List Nat)) (s2 s' : St) (text : List Nat), OnLine e s1 s2 text →
        steps e s2 (lineCalls line) = some s' → OnLine e s1 s' (text ++ line.flatMap (·.2)) := by
      intro line
      induction line with
      | nil => intro s2 s' text ho h; obtain rfl : s2 = s' := by simpa [steps, lineCalls] using h
               simpa using ho
      | cons q line ih =>
        intro s2 s' text ho h
        simp only [lineCalls, List.map_cons, steps] at h
        obtain ⟨s3, h3, h4⟩ := Option.bind_eq_some_iff.1 h
        have := ih s3 s' _ (line_next ho h3) h4
        simpa [List.append_assoc] using this
    obtain ⟨-, -, ⟨r, hr, hcur⟩⟩ := hall line s2 s' p.2 hfirst h3
    refine ⟨fromPoints e.cfg r.2.2, ?_, ?_, ?_⟩
    · unfold measureTextWidth
      have : (p :: line).flatMap (·.2) = p.2 ++ line.flatMap (·.2) := rfl
      rw [this, show createContent (e.fonts (s.cur.font + 1)) (p.2 ++ line.flatMap (·.2)) s.cur.fontSize s.cur.charSpacing
        none = some r from hr]
      rfl
    · rw [hcur]
      show fromPoints e.cfg (toPoints e.cfg x + r.2.2) = x + fromPoints e.cfg r.2.2
      have h1 := (units_round_trip e.cfg x).1
      have h2 : ∀ a b : ℚ, fromPoints e.cfg (a + b) = fromPoints e.cfg a + fromPoints e.cfg b := by
        intro a b; unfold fromPoints; split <;> ring
      rw [h2, h1]
    · rw [hcur]
      show fromPoints e.cfg (toPoints e.cfg y) = y
      exact (units_round_trip e.cfg y).1

/-- The widths a reader takes from the document are those of the font. -/
def Declares (wd : Widths) (e : Env) : Prop := ∀ (font g w : Nat), glyphWidth (e.fonts font).run g = .ok w → wd font g = w

theorem measured_sum {e : Env} {t : TextItem} (h : Measured e t) :
    ∃ s : Int, sumWidth (e.fonts t.font).run (spaceWidth (e.fonts t.font) t.fontSize t.charSpacing) (0, 0)
      (withIndex 0 t.text) = .ok s ∧ t.textWidth = (s : ℚ) * (t.fontSize / 1000) := by
  obtain ⟨r, hr, -, -, h3⟩ := h.ok
  unfold createContent at hr
  split at hr
  · exact absurd hr (by simp)
  · next s hs =>
    refine ⟨s, hs, ?_⟩
    split at hr
    · obtain rfl := Option.some.inj hr; exact h3
    · obtain rfl := Option.some.inj hr; exact h3

/-- **C39** What a reader's pen moves by while it shows a text of the document is the width the library computed for that
text, exactly, for text without character spacing and without justification (kerning included). -/
theorem drawn_advance_exact (e : Env) (wd : Widths) (hwd : Declares wd e) (height ml mt : ℚ) (calls : List Call) (s : St)
    (h : steps e (start height ml mt) calls = some s) (p : List Item) (hp : p ∈ s.pages) (t : TextItem) (ht : .text t ∈ p)
    (hcs : t.charSpacing = 0) (hj : justOf t = none) (g : GState) (hg : g.charSpace = t.charSpacing) (pen : ℚ × ℚ) :
    (show' wd g t.font t.fontSize pen (tjOf e t)).1 = (pen.1 + t.textWidth, pen.2) := by
  have hm := (steps_measured calls _ s h (by simp [start]) p hp t ht).1
  obtain ⟨sm, hs, htw⟩ := measured_sum hm
  rw [item_advance wd e t g pen sm (hwd t.font) hs, hj, hg, hcs]
  have : spaceWidth (e.fonts t.font) t.fontSize 0 = 0 := by simp [spaceWidth, truncQ, toPdfUnit]
  simp [gapCount, this, htw]

/-- **C39** With character spacing the text drawn is never narrower than measured, and wider by less than a thousandth of the
font size plus one font unit per glyph: the spacing is truncated when measuring. -/
theorem drawn_advance_bound (e : Env) (wd : Widths) (hwd : Declares wd e) (height ml mt : ℚ) (calls : List Call) (s : St)
    (h : steps e (start height ml mt) calls = some s) (p : List Item) (hp : p ∈ s.pages) (t : TextItem) (ht : .text t ∈ p)
    (hcs : 0 ≤ t.charSpacing) (hsz : 0 < t.fontSize) (hu : 0 < (e.fonts t.font).run.unitsPerEm) (hj : justOf t = none)
    (g : GState) (hg : g.charSpace = t.charSpacing) (pen : ℚ × ℚ) :
    let n : ℚ := (t.text.filterMap (e.fonts t.font).run.map.val).length
    let after := (show' wd g t.font t.fontSize pen (tjOf e t)).1
    pen.1 + t.textWidth ≤ after.1 ∧
      after.1 ≤ pen.1 + t.textWidth + n * (t.fontSize / 1000 + t.fontSize / (e.fonts t.font).run.unitsPerEm) ∧
      after.2 = pen.2 := by
  intro n after
  have hm := (steps_measured calls _ s h (by simp [start]) p hp t ht).1
  obtain ⟨sm, hs, htw⟩ := measured_sum hm
  have ha : after = _ := item_advance wd e t g pen sm (hwd t.font) hs
  rw [hj, hg, glyphCount_text] at ha
  obtain ⟨b1, b2⟩ := spacing_bound (e.fonts t.font) t.fontSize t.charSpacing hsz hu hcs
  have hn : (0 : ℚ) ≤ n := by positivity
  have e1 : after.1 = pen.1 + t.textWidth + n * (t.charSpacing -
      (spaceWidth (e.fonts t.font) t.fontSize t.charSpacing : ℚ) * (t.fontSize / 1000)) := by
    rw [ha, htw]; simp [gapCount, n, itemCodes]; ring
  refine ⟨?_, ?_, by rw [ha]⟩
  · rw [e1]; nlinarith [mul_nonneg hn (sub_nonneg.2 b1)]
  · rw [e1]; nlinarith [mul_le_mul_of_nonneg_left b2.le hn]

/-- **C39** The width of a concatenation is the sum of the widths plus the kerning of the pair where they meet. -/
theorem measure_append (e : Env) (c : Cur) (a b : List Nat) (la rb ga gb : Nat) (a' b' : List Nat) (ha : a = a' ++ [la]) (hb : b = rb :: b')
    (hga : (e.fonts (c.font + 1)).run.map.val la = some ga) (hgb : (e.fonts (c.font + 1)).run.map.val rb = some gb) (w : ℚ)
    (h : measureTextWidth e c (a ++ b) = some w) :
    ∃ wa wb, measureTextWidth e c a = some wa ∧ measureTextWidth e c b = some wb ∧
      w = wa + wb + (if (e.fonts (c.font + 1)).run.useKerning then
        fromPoints e.cfg ((toPdfUnit ((e.fonts (c.font + 1)).run.kern la rb ga gb) (e.fonts (c.font + 1)).run.unitsPerEm : ℚ) *
          (c.fontSize / 1000)) else 0) := by
  obtain ⟨f, hf⟩ : ∃ f, f = e.fonts (c.font + 1) := ⟨_, rfl⟩
  unfold measureTextWidth createContent at h ⊢
  rw [← hf] at h hga hgb ⊢
  obtain ⟨space, hsp⟩ : ∃ k, k = spaceWidth f c.fontSize c.charSpacing := ⟨_, rfl⟩
  rw [← hsp] at h ⊢
  obtain ⟨k, hk, hk1, -⟩ := withIndex_append a b 0
  have hk0 : 0 < k := hk1 (by rw [ha]; simp)
  cases hs : sumWidth f.run space (0, 0) (withIndex 0 (a ++ b)) with
  | error er => rw [hs] at h; simp at h
  | ok s =>
    rw [hs] at h
    simp only [Option.map_some, Option.some.injEq] at h
    rw [hk] at hs
    obtain ⟨s1, s2, h1, h2, h3⟩ := sumWidth_ok_append f.run space _ _ _ _ hs
    have hlast : ((withIndex 0 a).filterMap fun p => (f.run.map.val p.2).map fun g => (p.2, g)).getLastD (0, 0) = (la, ga) := by
      obtain ⟨k', hk', -, -⟩ := withIndex_append a' [la] 0
      rw [ha, hk', List.filterMap_append]
      simp [withIndex, hga]
    rw [hlast] at h2
    -- the rest of `b`
    subst hb
    have tail : ∀ (l : List Nat) (left : Nat × Nat) (i j : Nat), 0 < i → 0 < j →
        sumWidth f.run space left (withIndex i l) = sumWidth f.run space left (withIndex j l) := by
      intro l
      induction l with
      | nil => intro left i j _ _; rfl
      | cons r l ih =>
        intro left i j hi hj
        simp only [withIndex, sumWidth]
        have hkb : ∀ g, kernBefore f.run i r g left = kernBefore f.run j r g left := by
          intro g; simp [kernBefore, hi, hj]
        cases f.run.map.val r with
        | none => exact ih left _ _ (by omega) (by omega)
        | some g => simp only [ih (r, g) (i + TextRun.utf8Len r) (j + TextRun.utf8Len r) (by omega) (by omega), hkb]
    have hu8 : 0 < TextRun.utf8Len rb := by unfold TextRun.utf8Len; split <;> (try split) <;> (try split) <;> omega
    simp only [withIndex, sumWidth, hgb] at h2
    have ht := tail b' (rb, gb) (k + TextRun.utf8Len rb) (0 + TextRun.utf8Len rb) (by omega) (by omega)
    cases hg : glyphWidth f.run gb with
    | error er => rw [hg] at h2; simp at h2
    | ok wg =>
      rw [hg] at h2
      simp only at h2
      cases hs3 : sumWidth f.run space (rb, gb) (withIndex (k + TextRun.utf8Len rb) b') with
      | error er => rw [hs3] at h2; simp at h2
      | ok s3 =>
        rw [hs3] at h2
        simp only [Except.ok.injEq] at h2
        rw [ht] at hs3
        have hb : sumWidth f.run space (0, 0) (withIndex 0 (rb :: b')) = .ok (wg + kernBefore f.run 0 rb gb (0, 0) + space + s3) := by
          simp only [withIndex, sumWidth, hgb, hg, hs3]
        rw [h1, hb]
        refine ⟨_, _, rfl, rfl, ?_⟩
        rw [← h, h3, ← h2]
        have hk2 : kernBefore f.run 0 rb gb (0, 0) = 0 := by simp [kernBefore]
        have hk3 : kernBefore f.run k rb gb (la, ga) =
            if f.run.useKerning then toPdfUnit (f.run.kern la rb ga gb) f.run.unitsPerEm else 0 := by
          cases hu : f.run.useKerning <;> simp [kernBefore, hk0, hu]
        rw [hk2, hk3]
        unfold fromPoints
        cases f.run.useKerning <;> by_cases hc : e.cfg.conv = 0 <;> simp [hc] <;> push_cast <;> ring

/-- **C39** (counterexample)  A quarter point of character spacing at size 14: measuring counts 17 thousandths of the size
instead of a quarter point, so the text drawn is wider than measured. -/
theorem spacing_measured_short_fails :
    let f : Content.Font := demoRunFont
    let item : TextItem := newText { x := 0, y := 0, pageHeight := 842, fontSize := 14, charSpacing := 1 / 4 } false none {}
    let g : GState := { charSpace := 1 / 4 }
    (extend { demoEnv with fonts := fun _ => f } item [65]).map (·.textWidth) = some (617 * 14 / 1000) ∧
    (extend { demoEnv with fonts := fun _ => f } item [65]).map (fun t =>
      (show' (fun _ _ => 600) g 1 14 (0, 0) (tjOf { demoEnv with fonts := fun _ => f } t)).1.1) = some (600 * 14 / 1000 + 1 / 4) := by
  constructor <;> decide +kernel

/-- **C39** (counterexample)  Br(0) returns the cursor to the left margin, but text written next on the same line is joined to
the text before it: the cursor does not move by the measured width from where it was. -/
theorem cursor_after_br_fails :
    let calls : List Call := [.setFont 0 0 10, .text [65], .br 0]
    (steps demoEnv (start 842 10 10) calls).map (fun s => s.cur.x) = some 10 ∧
    (steps demoEnv (start 842 10 10) calls).bind (fun s => measureTextWidth demoEnv s.cur [66]) = some 7 ∧
    (steps demoEnv (start 842 10 10) (calls ++ [.text [66]])).map (fun s => s.cur.x) = some 23 := by
  refine ⟨?_, ?_, ?_⟩ <;> decide +kernel

/-- The hypotheses are met: a line of three calls in millimetres, kerned. -/
def kernEnv : Env :=
  { demoEnv with cfg := ⟨2, 0⟩, fonts := fun _ => { demoRunFont with
      run := { demoRunFont.run with useKerning := true, kern := fun l r _ _ => if l = 65 ∧ r = 66 then -40 else 0 } } }

example : ∃ s s', steps kernEnv (start 842 10 10) [.setFont 0 0 10] = some s ∧
    steps kernEnv s (.setXY 20 30 :: lineCalls [(false, [65]), (true, [66, 65]), (false, [66])]) = some s' ∧
    measureTextWidth kernEnv s.cur [65, 66, 65, 66] = some ((600 - 40 + 700 + 600 - 40 + 700) * 10 / 1000 * (254 / 10) / 72) := by
  have h : (steps kernEnv (start 842 10 10) [.setFont 0 0 10]).isSome = true := by decide +kernel
  obtain ⟨s, hs⟩ := Option.isSome_iff_exists.1 h
  have h2 : ((steps kernEnv (start 842 10 10) [.setFont 0 0 10]).bind fun s =>
    steps kernEnv s (.setXY 20 30 :: lineCalls [(false, [65]), (true, [66, 65]), (false, [66])])).isSome = true := by decide +kernel
  have h3 : ((steps kernEnv (start 842 10 10) [.setFont 0 0 10]).bind fun s => measureTextWidth kernEnv s.cur [65, 66, 65, 66]) =
    some ((600 - 40 + 700 + 600 - 40 + 700) * 10 / 1000 * (254 / 10) / 72) := by decide +kernel
  rw [hs] at h2 h3
  obtain ⟨s', hs'⟩ := Option.isSome_iff_exists.1 h2
  exact ⟨s, s', hs, hs', h3⟩

end Verif.Props
