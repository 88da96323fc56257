import Verif.Props.Measure
import Verif.Lemmas.Content.Justify
/- C40: alignment. -/
namespace Verif.Props
open Content Paint Drawing
open TextRun (RunFont withIndex sumWidth glyphWidth tjLoop)
open Units (toPoints fromPoints)

/-- Ascender and descender of the current font at the current size, in points (the descender is negative). -/
def ascent (e : Env) (c : Cur) : ℚ := (e.fonts (c.font + 1)).typoAscender * c.fontSize / (e.fonts (c.font + 1)).run.unitsPerEm
def descent (e : Env) (c : Cur) : ℚ := (e.fonts (c.font + 1)).typoDescender * c.fontSize / (e.fonts (c.font + 1)).run.unitsPerEm

private theorem textStart_append (a b : List Op) : textStart (a ++ b) = (textStart a).or (textStart b) := by
  simp [textStart, List.findSome?_append]

private theorem textStart_gs : ∀ l : List Nat, textStart (l.map Op.gs) = none := by
  intro l
  induction l with
  | nil => rfl
  | cons n l ih => exact ih

theorem textStart_text (e : Env) (t : TextItem) : textStart (ops e (.text t)) = some (calX t, calY e t) := by
  simp only [ops, textOps, textStart_append, textStart_gs]
  have h1 : textStart (if t.opt.ext ≠ [] then [Op.q] else []) = none := by split <;> rfl
  rw [h1]
  rfl

theorem typo_eq (v : Int) (f : Font) (size : ℚ) : typo v f size = v * size / f.run.unitsPerEm := by
  unfold typo; ring

/-- **C40** CellWithOption with a rectangle puts one text on the page, at the cursor, inside the rectangle: flush right for
Right, with equal space on both sides for Center, flush left otherwise; the line box (ascender to descender) at the bottom of
the rectangle for Bottom, with equal space above and below for Middle, at the top otherwise; a text that is not wider than the
rectangle does not leave it on either side.  In every document, after SetXY, in every unit. -/
theorem cell_alignment (e : Env) (height ml mt : ℚ) (calls : List Call) (s : St)
    (h : steps e (start height ml mt) calls = some s) (x y : ℚ) (r : Units.Rect) (text : List Nat) (opt : CellOption)
    (tr : Option (Option Nat)) (s' : St)
    (hc : steps e s [.setXY x y, .cellWithOption (some r) text opt tr] = some s') :
    ∃ (t : TextItem) (X Y w : ℚ), s'.pages.getD s.page [] = s.pages.getD s.page [] ++ [.text t] ∧
      textStart (ops e (.text t)) = some (X, Y) ∧ measureTextWidth e s.cur text = some w ∧
      let x0 := toPoints e.cfg x
      let y0 := s.cur.pageHeight - toPoints e.cfg y
      let W := (r.toPointsT e.cfg.unit).w
      let H := (r.toPointsT e.cfg.unit).h
      let tw := toPoints e.cfg w
      (opt.align &&& 2 = 2 → X + tw = x0 + W) ∧
      (opt.align &&& 2 ≠ 2 → opt.align &&& 16 = 16 → X - x0 = x0 + W - (X + tw)) ∧
      (opt.align &&& 2 ≠ 2 → opt.align &&& 16 ≠ 16 → X = x0) ∧
      (0 ≤ tw → tw ≤ W → x0 ≤ X ∧ X + tw ≤ x0 + W) ∧
      (opt.align &&& 1 = 1 → Y + descent e s.cur = y0 - H) ∧
      (opt.align &&& 1 ≠ 1 → opt.align &&& 32 = 32 →
        y0 - (Y + ascent e s.cur) = (Y + descent e s.cur) - (y0 - H)) ∧
      (opt.align &&& 1 ≠ 1 → opt.align &&& 32 ≠ 32 → Y + ascent e s.cur = y0) := by
  have hp : s.page < s.pages.length := by
    have : ∀ (calls : List Call) (s s' : St), s.page < s.pages.length → steps e s calls = some s' →
        s'.page < s'.pages.length := by
      intro calls
      induction calls with
      | nil => intro s s' hp h; obtain rfl : s = s' := by simpa [steps] using h
               exact hp
      | cons c calls ih =>
        intro s s' hp h
        obtain ⟨s1, h1, h2⟩ := Option.bind_eq_some_iff.1 h
        exact ih s1 s' (did_page h1 hp) h2
    exact this calls _ s (by simp [start]) h
  have hm := steps_measured calls _ s h (by simp [start])
  let c1 : Cur := { s.cur with x := toPoints e.cfg x, y := toPoints e.cfg y, setXCount := s.cur.setXCount + 1 }
  let s1 : St := { s with cur := c1 }
  have hfresh := fresh_after_set (e := e) (s := s1) (fun p hpm t ht => Nat.lt_succ_of_le (hm p hpm t ht).2)
  have hst : s1.addText e (newText c1 true (some (r.toPointsT e.cfg.unit)) { opt with ext := opt.ext ++ transOf s1 tr }) text =
      some s' := by
    have : steps e s [.setXY x y, .cellWithOption (some r) text opt tr] =
      (s1.addText e (newText c1 true (some (r.toPointsT e.cfg.unit)) { opt with ext := opt.ext ++ transOf s1 tr }) text).bind some := rfl
    rw [this] at hc
    simpa using hc
  unfold St.addText at hst
  split at hst
  · exact absurd hst (by simp)
  next items xx yy hap =>
  obtain rfl := Option.some.inj hst
  obtain ⟨pre, c', t, hcase, hx, rfl, -, -⟩ := append_cases hap
  have hj := hfresh (newText c1 true (some (r.toPointsT e.cfg.unit)) { opt with ext := opt.ext ++ transOf s1 tr }) rfl
  rcases hcase with ⟨hpre, hs⟩ | ⟨hpre, rfl, -⟩
  · rw [hpre] at hj; simp [joinTarget, hs] at hj
  have hme := extend_measured hx
  have hfields : t.x = toPoints e.cfg x ∧ t.y = toPoints e.cfg y ∧ t.isCell = true ∧ t.opt.align = opt.align ∧
      t.font = s.cur.font + 1 ∧ t.fontSize = s.cur.fontSize ∧ t.charSpacing = s.cur.charSpacing ∧ t.text = text ∧
      t.rectangle = some (r.toPointsT e.cfg.unit) ∧ t.pageHeight = s.cur.pageHeight := by
    unfold extend at hx
    obtain ⟨q, hq, rfl⟩ := Option.map_eq_some_iff.1 hx
    exact ⟨rfl, rfl, rfl, rfl, rfl, rfl, rfl, by simp [newText], rfl, rfl⟩
  obtain ⟨f1, f2, f3, f4, f5, f6, f7, f8, f9, f10⟩ := hfields
  obtain ⟨q, hq, q1, q2, q3⟩ := hme.ok
  rw [f5, f6, f7, f8, f9] at hq
  have hmw : ∃ q', createContent (e.fonts (s.cur.font + 1)) text s.cur.fontSize s.cur.charSpacing none = some q' ∧
      q'.2.2 = q.2.2 ∧ q.1 = (r.toPointsT e.cfg.unit).w ∧ q.2.1 = (r.toPointsT e.cfg.unit).h := by
    unfold createContent at hq ⊢
    split at hq
    · exact absurd hq (by simp)
    · obtain rfl := Option.some.inj hq; exact ⟨_, rfl, rfl, rfl, rfl⟩
  obtain ⟨q', hq', hqw, hw1, hh1⟩ := hmw
  refine ⟨t, calX t, calY e t, fromPoints e.cfg q.2.2, ?_, textStart_text e t, ?_, ?_⟩
  · rw [getD_set _ _ _ _ hp, if_pos rfl, ← hpre]
  · unfold measureTextWidth; rw [hq', Option.map_some, hqw]
  · have htw : toPoints e.cfg (fromPoints e.cfg q.2.2) = t.textWidth := by rw [(units_round_trip e.cfg _).2, q3]
    dsimp only
    rw [htw, ← f1, ← f2, ← f10, ← hw1, ← hh1, ← q1, ← q2]
    have X1 : opt.align &&& 2 = 2 → calX t = t.x + t.cellWidth - t.textWidth := by
      intro ha; simp [calX, f3, has, right, f4, ha]
    have X2 : opt.align &&& 2 ≠ 2 → opt.align &&& 16 = 16 → calX t = t.x + t.cellWidth / 2 - t.textWidth / 2 := by
      intro ha hb; simp [calX, f3, has, right, center, f4, ha, hb]
    have X3 : opt.align &&& 2 ≠ 2 → opt.align &&& 16 ≠ 16 → calX t = t.x := by
      intro ha hb; simp [calX, f3, has, right, center, f4, ha, hb]
    have hasc : typo (e.fonts t.font).typoAscender (e.fonts t.font) t.fontSize = ascent e s.cur := by
      rw [typo_eq, f5, f6]; rfl
    have hdesc : typo (e.fonts t.font).typoDescender (e.fonts t.font) t.fontSize = descent e s.cur := by
      rw [typo_eq, f5, f6]; rfl
    refine ⟨fun ha => ?_, fun ha hb => ?_, fun ha hb => X3 ha hb, fun h0 h1 => ?_, fun ha => ?_, fun ha hb => ?_, fun ha hb => ?_⟩
    · rw [X1 ha]; ring
    · rw [X2 ha hb]; ring
    · by_cases ha : opt.align &&& 2 = 2
      · rw [X1 ha]; constructor <;> linarith
      · by_cases hb : opt.align &&& 16 = 16
        · rw [X2 ha hb]; constructor <;> linarith
        · rw [X3 ha hb]; constructor <;> linarith
    · have : calY e t = t.pageHeight - t.y - t.cellHeight - descent e s.cur := by
        unfold calY; simp only [f3, has, bottom, f4, ha, hdesc]; simp
      rw [this]; ring
    · have : calY e t = t.pageHeight - t.y - t.cellHeight / 2 - (descent e s.cur + ascent e s.cur) / 2 := by
        unfold calY
        simp only [f3, has, bottom, middle, f4, hdesc, hasc, beq_iff_eq, ha, hb]
        simp
      rw [this]; ring
    · have : calY e t = t.pageHeight - t.y - ascent e s.cur := by
        unfold calY
        simp only [f3, has, bottom, middle, f4, hasc, beq_iff_eq, ha, hb]
        simp
      rw [this]; ring

/-- **C40** Justified text: each space between words is widened by the same amount and nothing else moves - every character
stands at its unjustified place plus that amount for every space between words before it - and the measured width together
with what was added is the width of the rectangle up to half a thousandth of the font size per gap (TJ numbers are integers),
if the text is narrower than the rectangle and has a gap.  Without character spacing the measured width is the drawn one
(with it see `drawn_advance_bound`).  For every text item of every document. -/
theorem justify_spreads (e : Env) (wd : Widths) (hwd : Declares wd e) (height ml mt : ℚ) (calls : List Call) (s : St)
    (h : steps e (start height ml mt) calls = some s) (p : List Item) (hp : p ∈ s.pages) (t : TextItem) (ht : .text t ∈ p)
    (hcell : t.isCell = true) (hrect : t.rectangle.isSome) (ha : t.opt.align &&& 64 = 64)
    (hsz : 0 < t.fontSize) (hall : ∀ c ∈ t.text, ((e.fonts t.font).run.map.val c).isSome)
    (hgap : 0 < interiorBefore t.text t.text.length) (hslack : t.textWidth < t.cellWidth)
    (g : GState) (hg : g.charSpace = t.charSpacing) (pen : ℚ × ℚ) :
    ∃ extra : ℚ,
      (∀ k : Nat, (positions (show' wd g t.font t.fontSize pen (tjOf e t)).2)[k]? =
        (positions (show' wd g t.font t.fontSize pen (tjOf e { t with opt := { t.opt with align := 0 } })).2)[k]?.map
          fun q => (q.1 + interiorBefore t.text (min k t.text.length) * extra, q.2)) ∧
      (show' wd g t.font t.fontSize pen (tjOf e t)).1 =
        ((show' wd g t.font t.fontSize pen (tjOf e { t with opt := { t.opt with align := 0 } })).1.1 +
          interiorBefore t.text t.text.length * extra, pen.2) ∧
      (t.charSpacing = 0 → (show' wd g t.font t.fontSize pen (tjOf e { t with opt := { t.opt with align := 0 } })).1.1 =
        pen.1 + t.textWidth) ∧
      |t.textWidth + interiorBefore t.text t.text.length * extra - t.cellWidth| ≤
        interiorBefore t.text t.text.length * t.fontSize / 2000 := by
  have hm := (steps_measured calls _ s h (by simp [start]) p hp t ht).1
  obtain ⟨sm, hs, htw⟩ := measured_sum hm
  set n := interiorBefore t.text t.text.length with hn
  set a := justifyAdjustment (t.cellWidth - t.textWidth) (interiorSpaceCount t.text) t.fontSize with hadef
  have hall' : ∀ p ∈ withIndex 0 t.text, ((e.fonts t.font).run.map.val p.2).isSome :=
    fun q hq => hall _ (mem_withIndex _ _ _ hq)
  have hgc : (withIndex 0 t.text).countP (isGap (nonSpaceBounds t.text).1 (nonSpaceBounds t.text).2) = n := by
    rw [hn, ← count_interior t.text t.text.length (le_refl _), List.take_of_length_le (by rw [length_withIndex])]
  have hjust : justOf t = if a = 0 then none else some (a, (nonSpaceBounds t.text).1, (nonSpaceBounds t.text).2) := by
    unfold justOf
    simp [hcell, has, Content.justify, ha, hrect, hadef]
  have hplain : justOf { t with opt := { t.opt with align := 0 } } = none := by
    unfold justOf; simp [has, Content.justify]
  have hplainAdv := item_advance wd e { t with opt := { t.opt with align := 0 } } g pen sm (hwd t.font) hs
  rw [hplain] at hplainAdv
  refine ⟨-((a : ℚ) / 1000 * t.fontSize), fun k => ?_, ?_, fun hcs => ?_, ?_⟩
  · have hL : tjOf e { t with opt := { t.opt with align := 0 } } =
        (tjLoop (e.fonts t.font).run none (0, 0) (withIndex 0 t.text)).map tjItem := by
      unfold tjOf; rw [hplain]
    rw [hL]
    by_cases h0 : a = 0
    · have hJ : tjOf e t = (tjLoop (e.fonts t.font).run none (0, 0) (withIndex 0 t.text)).map tjItem := by
        unfold tjOf; rw [hjust, if_pos h0]
      rw [hJ, h0]
      have hid : ∀ o : Option (ℚ × ℚ), o = o.map fun q : ℚ × ℚ =>
          (q.1 + (interiorBefore t.text (min k t.text.length) : ℚ) * -(((0 : Int) : ℚ) / 1000 * t.fontSize), q.2) := by
        intro o; cases o <;> simp
      exact hid _
    · have hJ : tjOf e t = (tjLoop (e.fonts t.font).run (some (a, (nonSpaceBounds t.text).1, (nonSpaceBounds t.text).2))
          (0, 0) (withIndex 0 t.text)).map tjItem := by
        unfold tjOf; rw [hjust, if_neg h0]
      rw [hJ]
      have := positions_loop wd g (e.fonts t.font).run t.font t.fontSize a (nonSpaceBounds t.text).1 (nonSpaceBounds t.text).2
        (withIndex 0 t.text) (0, 0) pen 0 hall' k
      have hp0 : (pen.1 + 0, pen.2) = pen := by simp
      rw [hp0] at this
      rw [this]
      congr 1
      funext q
      have htake : (withIndex 0 t.text).take k = (withIndex 0 t.text).take (min k t.text.length) := by
        rcases Nat.le_total k t.text.length with hk | hk
        · rw [Nat.min_eq_left hk]
        · rw [Nat.min_eq_right hk, List.take_of_length_le (by rw [length_withIndex]; exact hk),
            List.take_of_length_le (by rw [length_withIndex])]
      rw [htake, count_interior t.text _ (Nat.min_le_right _ _)]
      simp
  · rw [hplainAdv, item_advance wd e t g pen sm (hwd t.font) hs, hjust]
    by_cases h0 : a = 0
    · rw [if_pos h0, h0]; simp [gapCount]
    · rw [if_neg h0, gapCount_all _ _ _ _ _ hall', hgc]
      simp only [adjOf, gapCount]
      ext
      · simp; ring
      · rfl
  · have hsp : spaceWidth (e.fonts t.font) t.fontSize t.charSpacing = 0 := by
      rw [hcs]; simp [spaceWidth, TextRun.toPdfUnit, truncQ]
    rw [hplainAdv, hg, hsp, hcs]; simp [gapCount, htw]
  · have hpos : (0 : ℚ) < n := by exact_mod_cast hgap
    have hane : a = roundAway (-((t.cellWidth - t.textWidth) / n * 1000 / t.fontSize)) := by
      rw [hadef]; unfold justifyAdjustment
      rw [interiorSpaceCount_eq, if_neg]
      rintro (h0 | h0 | h0)
      · omega
      · linarith
      · linarith
    have hr := roundAway_near (-((t.cellWidth - t.textWidth) / n * 1000 / t.fontSize))
    rw [← hane] at hr
    have key : t.textWidth + n * -((a : ℚ) / 1000 * t.fontSize) - t.cellWidth =
        -(n * t.fontSize / 1000) * ((a : ℚ) - -((t.cellWidth - t.textWidth) / n * 1000 / t.fontSize)) := by
      field_simp; ring
    rw [key, abs_mul, abs_neg, abs_of_nonneg (by positivity)]
    calc (n : ℚ) * t.fontSize / 1000 * |(a : ℚ) - -((t.cellWidth - t.textWidth) / n * 1000 / t.fontSize)|
        ≤ n * t.fontSize / 1000 * (1 / 2) := mul_le_mul_of_nonneg_left hr (by positivity)
      _ = n * t.fontSize / 2000 := by ring

/-- **C40** Text that fills its rectangle or has no space between words is not changed by Justify. -/
theorem justify_falls_back (e : Env) (t : TextItem)
    (h : interiorBefore t.text t.text.length = 0 ∨ t.cellWidth ≤ t.textWidth) :
    tjOf e t = tjOf e { t with opt := { t.opt with align := 0 } } := by
  have hplain : justOf { t with opt := { t.opt with align := 0 } } = none := by
    unfold justOf; simp [has, Content.justify]
  have h0 : justifyAdjustment (t.cellWidth - t.textWidth) (interiorSpaceCount t.text) t.fontSize = 0 := by
    unfold justifyAdjustment
    rw [interiorSpaceCount_eq, if_pos]
    rcases h with h | h
    · exact .inl h
    · exact .inr (.inl (by linarith))
  have hj : justOf t = none := by
    unfold justOf
    split
    · simp [h0]
    · rfl
  unfold tjOf
  rw [hj, hplain]

/-- A font with a space. -/
def spaceEnv : Env :=
  { demoEnv with fonts := fun _ => { demoRunFont with run := { demoRunFont.run with
      widths := [500, 600, 700, 250], nHMetrics := 4, map := ⟨[(32, 2), (65, 0), (66, 1)], [65, 66, 32], [1, 2, 3]⟩ } } }

/-- **C40** (counterexample to exactness)  "A B A" at 14 points justified in 41 points: the two gaps receive 264 thousandths each
instead of 264.28…, so the text ends 0.008 points short of the right edge. -/
theorem justify_not_exact_fails :
    let calls : List Call := [.setFont 0 0 14, .cellWithOption (some { w := 41, h := 20 }) [65, 32, 66, 32, 65] { align := 64 } none]
    (steps spaceEnv (start 842 10 10) calls).bind (fun s => (s.pages.getD 0 []).getLast?.bind fun i => match i with
      | .text t => some ((show' (fun _ g => ([500, 600, 700, 250] : List ℚ).getD g 0) {} t.font t.fontSize (0, 0) (tjOf spaceEnv t)).1.1,
          t.cellWidth, t.textWidth, interiorBefore t.text t.text.length)
      | _ => none) = some (40992 / 1000, 41, 2400 * 14 / 1000, 2) := by
  decide +kernel

/-- The calls of `cell_alignment` are possible in a document with other drawings, and the alignment is not trivial: a text 18.2
points wide, right and bottom aligned in a rectangle of 100 by 20 points at (50, 60), starts at x = 131.8. -/
example :
    let calls : List Call := [.setFont 0 0 14, .text [66], .setXY 50 60,
      .cellWithOption (some { w := 100, h := 20 }) [65, 66] { align := 3 } none]
    (steps spaceEnv (start 842 10 10) calls).bind (fun s => (s.pages.getD 0 []).getLast?.bind fun i =>
      (textStart (ops spaceEnv i)).map Prod.fst) = some (1318 / 10) := by
  decide +kernel

/-- The text of `justify_not_exact_fails` meets the hypotheses of `justify_spreads`. -/
example :
    let calls : List Call := [.setFont 0 0 14, .cellWithOption (some { w := 41, h := 20 }) [65, 32, 66, 32, 65] { align := 64 } none]
    (steps spaceEnv (start 842 10 10) calls).bind (fun s => (s.pages.getD 0 []).getLast?.bind fun i => match i with
      | .text t => some (t.isCell, t.rectangle.isSome, t.opt.align &&& 64, t.charSpacing, t.fontSize,
          t.text.all fun c => ((spaceEnv.fonts t.font).run.map.val c).isSome)
      | _ => none) = some (true, true, 64, 0, 14, true) := by
  decide +kernel

end Verif.Props
