import Verif.Lemmas.Content.MultiCell
import Verif.Props.Align
import Verif.Props.Split
/- C41: text over several lines. -/
namespace Verif.Props
open Content Paint Drawing
open Units (toPoints fromPoints)

/-- What `MultiCell` compares (gopdf.go 1184, 1190), for the proofs. -/
private def exOf (e : Env) (c : Cur) (w : ℚ) (l : List Nat) (v : Nat) : Bool :=
  match measureTextWidth e c l, measureTextWidth e c [v] with
  | some a, some b => decide (a + b > w)
  | _, _ => false

private def overOf (lh h : ℚ) (n : Nat) : Bool := decide ((n : ℚ) * lh + lh > h)

private theorem exOf_eq (e : Env) (c : Cur) (w : ℚ) (l : List Nat) (v : Nat) (a b : ℚ) (ha : measureTextWidth e c l = some a)
    (hb : measureTextWidth e c [v] = some b) : exOf e c w l v = decide (a + b > w) := by simp [exOf, ha, hb]

/-- The state after SetXY has nothing to join to. -/
theorem after_set {e : Env} {height ml mt : ℚ} {calls : List Call} {s s1 : St} (h : steps e (start height ml mt) calls = some s)
    {x y : ℚ} (h1 : step e s (.setXY x y) = some s1) :
    s1.page < s1.pages.length ∧ NoJoin s1 ∧ s1.page = s.page ∧ s1.pages = s.pages ∧ s1.cur.x = toPoints e.cfg x ∧
      s1.cur.y = toPoints e.cfg y ∧ SameFont s1.cur s.cur ∧ s1.cur.pageHeight = s.cur.pageHeight ∧ s1.cur.ext = s.cur.ext := by
  have hp : s.page < s.pages.length := by
    have : ∀ (calls : List Call) (s s' : St), s.page < s.pages.length → steps e s calls = some s' →
        s'.page < s'.pages.length := by
      intro calls
      induction calls with
      | nil => intro s s' hp h; obtain rfl : s = s' := by simpa [steps] using h
               exact hp
      | cons c calls ih =>
        intro s s' hp h
        obtain ⟨s1, h1, h2⟩ := Option.bind_eq_some_iff.1 h
        exact ih s1 s' (did_page h1 hp) h2
    exact this calls _ s (by simp [start]) h
  have hm := steps_measured calls _ s h (by simp [start])
  simp only [step, Option.some.injEq] at h1
  subst h1
  exact ⟨hp, fresh_after_set (e := e) (fun p hpm t ht => Nat.lt_succ_of_le (hm p hpm t ht).2), rfl, rfl, rfl, rfl, ⟨rfl, rfl, rfl⟩,
    rfl, rfl⟩

theorem toPoints_mul (c : Units.Cfg) (y lh : ℚ) (k : Nat) : toPoints c y + k * toPoints c lh = toPoints c (y + k * lh) := by
  unfold toPoints; split <;> ring

/-- **C41** What MultiCell does, in every document, from any point, for every text, width and height: it draws consecutive lines
of the text, one below the other, each one line height lower, all starting at the same x, and leaves the cursor at the start of
the next line.  The lines together with what was not drawn are the text.  Every character of a line fitted after those before
it; a line ends only where the next character does not fit.  Text is left out only when a further line would not fit in the
height; every line has room in the height except possibly the last one of a text drawn completely. -/
theorem multi_cell_draws (e : Env) (height ml mt : ℚ) (calls : List Call) (s : St)
    (h : steps e (start height ml mt) calls = some s) (x y : ℚ) (s1 : St) (h1 : step e s (.setXY x y) = some s1)
    (r : Units.Rect) (text : List Nat) (s' : St) (hm : multiCell e s1 r text = some s') :
    ∃ (lh : ℚ) (lines : List (List Nat)) (lost : List Nat) (items : List TextItem),
      measureCellHeight e s.cur text = some lh ∧ lines.flatten ++ lost = text ∧
      s'.pages = s.pages.set s.page (s.pages.getD s.page [] ++ items.map .text) ∧ items.map (·.text) = lines ∧
      (∀ (k : Nat) (t : TextItem), items[k]? = some t →
        textStart (ops e (.text t)) = some (toPoints e.cfg x, s.cur.pageHeight - toPoints e.cfg (y + k * lh) - ascent e s.cur)) ∧
      fromPoints e.cfg s'.cur.x = x ∧ fromPoints e.cfg s'.cur.y = y + lines.length * lh ∧
      (∀ l ∈ lines, ∀ pre v a b, pre ++ [v] <+: l → pre ≠ [] → measureTextWidth e s.cur pre = some a →
        measureTextWidth e s.cur [v] = some b → a + b ≤ r.w) ∧
      (∀ (i : Nat) (l l' : List Nat), lines[i]? = some l → lines[i + 1]? = some l' →
        ∃ v t a b, l' = v :: t ∧ measureTextWidth e s.cur l = some a ∧ measureTextWidth e s.cur [v] = some b ∧ r.w < a + b) ∧
      (lost ≠ [] → r.h < (lines.length + 1) * lh) ∧
      (∀ i : Nat, i + 1 < lines.length ∨ i < lines.length ∧ lost ≠ [] → (i + 1) * lh ≤ r.h) := by
  obtain ⟨hp, hj, hpage, hpages, hx, hy, hf, hph, -⟩ := after_set h h1
  unfold multiCell at hm
  obtain ⟨lh, hlh, hm⟩ := Option.bind_eq_some_iff.1 hm
  rw [hx, (units_round_trip e.cfg x).1] at hm
  set ex := exOf e s.cur r.w
  set over := overOf lh r.h
  have hex : ∀ l v a b, measureTextWidth e s.cur l = some a → measureTextWidth e s.cur [v] = some b →
      ex l v = decide (a + b > r.w) := exOf_eq e s.cur r.w
  have hc := loop_calls (x := x) (c0 := s.cur) ex over hex (fun n => rfl) text [] 0 s1 s' hf (by simpa using hm)
  obtain ⟨items, g1, g2, g3, g4, g5, g6, g7, -, -⟩ := cells_drawn _ s1 s' hp hj hx hc
  have hflat : (broken ex over 0 [] text).1.flatten ++ (broken ex over 0 [] text).2 = text := by
    by_cases ht : text = []
    · subst ht; simp [broken]
    · simpa using broken_flatten ex over text [] 0 ht
  refine ⟨lh, _, (broken ex over 0 [] text).2, items, by rw [← hf.height]; exact hlh, hflat, ?_, g3, ?_, ?_, ?_, ?_, ?_, ?_, ?_⟩
  · rw [g1, hpage, hpages]
  · intro k t hk
    have q := g4 k t hk
    have hts : textStart (ops e (.text t)) = some (calX t, calY e t) := textStart_text e t
    rw [hts]
    have e1 : calX t = toPoints e.cfg x := by
      simp [calX, q.isCell, q.opt, has, right, center, q.x]
    have e2 : calY e t = s.cur.pageHeight - toPoints e.cfg (y + k * lh) - ascent e s.cur := by
      unfold calY
      simp only [q.isCell, q.opt, has, bottom, middle, q.font, q.size, q.height, q.y, hph, hy, toPoints_mul]
      simp only [typo_eq, ascent, hf.1, hf.2.1]
      norm_num
      intro h; exact absurd h (by decide)
    rw [e1, e2]
  · rw [g6, (units_round_trip e.cfg x).1]
  · rw [g7, hy, toPoints_mul, (units_round_trip e.cfg _).1]
  · intro l hl pre v a b hpre hne ha hb
    have := broken_fit ex over text [] 0 (by simp) l hl pre v hpre hne
    rw [hex pre v a b ha hb] at this
    simpa using this
  · intro i l l' hl hl'
    obtain ⟨v, t, rfl, hv⟩ := broken_greedy ex over text [] 0 i l l' hl hl'
    have hv' : exOf e s.cur r.w l v = true := hv
    unfold exOf at hv'
    split at hv'
    next a b ha hb => exact ⟨v, t, a, b, rfl, ha, hb, by simpa using hv'⟩
    · exact absurd hv' (by simp)
  · intro hl
    have := (broken_height ex over text [] 0).1 hl
    have h2 : overOf lh r.h (0 + (broken ex over 0 [] text).1.length) = true := this
    simp only [overOf, zero_add, decide_eq_true_eq] at h2
    linarith
  · intro i hi
    have := (broken_height ex over text [] 0).2 i hi
    have h2 : overOf lh r.h (0 + i) = false := this
    simp only [overOf, zero_add, decide_eq_false_iff_not, not_lt, gt_iff_lt] at h2
    linarith

/-- **C41** IsFitMultiCell answers true exactly if MultiCell at that moment would draw the whole text within the height of the
rectangle, and the height it returns is the distance the cursor would move down. -/
theorem is_fit_answers (e : Env) (height ml mt : ℚ) (calls : List Call) (s : St)
    (h : steps e (start height ml mt) calls = some s) (x y : ℚ) (s1 : St) (h1 : step e s (.setXY x y) = some s1)
    (r : Units.Rect) (text : List Nat) (s' : St) (hm : multiCell e s1 r text = some s') (fits : Bool) (used : ℚ)
    (hfit : isFitMultiCell e s1.cur r text = some (fits, used)) :
    ∃ items : List TextItem, s'.pages = s.pages.set s.page (s.pages.getD s.page [] ++ items.map .text) ∧
      used = fromPoints e.cfg s'.cur.y - y ∧
      (fits = true ↔ items.flatMap (·.text) = text ∧ fromPoints e.cfg s'.cur.y - y ≤ r.h) := by
  obtain ⟨hp, hj, hpage, hpages, hx, hy, hf, hph, -⟩ := after_set h h1
  unfold multiCell at hm
  obtain ⟨lh, hlh, hm⟩ := Option.bind_eq_some_iff.1 hm
  unfold isFitMultiCell at hfit
  rw [hlh, Option.bind_some] at hfit
  rw [hx, (units_round_trip e.cfg x).1] at hm
  set ex := exOf e s1.cur r.w
  set over := overOf lh r.h
  have hex : ∀ l v a b, measureTextWidth e s1.cur l = some a → measureTextWidth e s1.cur [v] = some b →
      ex l v = decide (a + b > r.w) := exOf_eq e s1.cur r.w
  have hc := loop_calls (x := x) (c0 := s1.cur) ex over hex (fun n => rfl) text [] 0 s1 s' ⟨rfl, rfl, rfl⟩ (by simpa using hm)
  obtain ⟨items, g1, g2, g3, g4, g5, g6, g7, -, -⟩ := cells_drawn _ s1 s' hp hj hx hc
  have hadv : fromPoints e.cfg s'.cur.y - y = (broken ex over 0 [] text).1.length * lh := by
    rw [g7, hy, toPoints_mul, (units_round_trip e.cfg _).1]; ring
  have hfm : items.flatMap (·.text) = (broken ex over 0 [] text).1.flatten := by rw [List.flatMap_def, g3]
  refine ⟨items, by rw [g1, hpage, hpages], ?_⟩
  rw [hadv, hfm]
  by_cases ht : text = []
  · subst ht
    simp only [fitLoop, Option.some.injEq, Prod.mk.injEq] at hfit
    obtain ⟨rfl, rfl⟩ := hfit
    simp [broken]
  · have := fitLoop_eq (c0 := s1.cur) ex over hex (fun n => rfl) text [] 0 (fits, used) ht (by simpa using hfit)
    simp only [Nat.zero_add] at this
    refine ⟨this.2, this.1.trans (and_congr_left fun _ => ?_)⟩
    have hfl := broken_flatten ex over text [] 0 ht
    rw [List.nil_append] at hfl
    constructor
    · intro h0; rw [h0, List.append_nil] at hfl; exact hfl
    · intro h0; rw [h0] at hfl; simpa using hfl

/-! ### Paragraphs -/

/-- Writing paragraphs one below the other with MultiCell, each in what is left of the height. -/
def writeParagraphs (e : Env) (w : ℚ) : ℚ → St → List (List Nat) → Option St
  | _, s, [] => some s
  | h, s, p :: rest => (multiCell e s { w := w, h := h } p).bind fun s' =>
    writeParagraphs e w (h - (fromPoints e.cfg s'.cur.y - fromPoints e.cfg s.cur.y)) s' rest

private theorem toPoints_sub (c : Units.Cfg) (a b : ℚ) : fromPoints c (a + toPoints c b) = fromPoints c a + b := by
  have h2 : ∀ a b : ℚ, fromPoints c (a + b) = fromPoints c a + fromPoints c b := by
    intro a b; unfold fromPoints; split <;> ring
  rw [h2, (units_round_trip c b).1]

private theorem height_any {e : Env} {c : Cur} {t : List Nat} {lh : ℚ} (h : measureCellHeight e c t = some lh) :
    lh = fromPoints e.cfg (typo (e.fonts (c.font + 1)).typoAscender (e.fonts (c.font + 1)) c.fontSize -
      typo (e.fonts (c.font + 1)).typoDescender (e.fonts (c.font + 1)) c.fontSize) := by
  unfold measureCellHeight createContent at h
  split at h
  · simp at h
  · simpa using h.symm

private theorem paragraphs_fit {e : Env} {w x : ℚ} (LH : Cur → ℚ) (hLH : ∀ c t lh, measureCellHeight e c t = some lh → lh = LH c) :
    ∀ (ps : List (List Nat)) (h : ℚ) (s s' : St) (o : Bool × ℚ), s.page < s.pages.length → NoJoin s →
    s.cur.x = toPoints e.cfg x → (∀ c, SameFont c s.cur → 0 ≤ LH c) → writeParagraphs e w h s ps = some s' →
    fitNewlineLoop e s.cur w h ps = some o → (ps ≠ [] ∨ 0 ≤ h) →
    ∃ items : List TextItem, s'.pages = s.pages.set s.page (s.pages.getD s.page [] ++ items.map .text) ∧
      0 ≤ fromPoints e.cfg s'.cur.y - fromPoints e.cfg s.cur.y ∧
      (items.flatMap (·.text)).length ≤ ps.flatten.length ∧
      (o.1 = true ↔ items.flatMap (·.text) = ps.flatten ∧ fromPoints e.cfg s'.cur.y - fromPoints e.cfg s.cur.y ≤ h) ∧
      (o.1 = true → h - o.2 = fromPoints e.cfg s'.cur.y - fromPoints e.cfg s.cur.y) := by
  intro ps
  induction ps with
  | nil =>
    intro h s s' o hp hj hx hpos hw hfit hh
    obtain rfl : s = s' := by simpa [writeParagraphs] using hw
    obtain rfl : (true, h) = o := by simpa [fitNewlineLoop] using hfit
    have h0 : 0 ≤ h := by simpa using hh
    refine ⟨[], ?_, by simp, by simp, by simp [h0], by simp⟩
    have : s.pages.getD s.page [] = s.pages[s.page] := by simp [List.getD_eq_getElem?_getD, hp]
    rw [this]; simp
  | cons p ps ih =>
    intro h s s' o hp hj hx hpos hw hfit _
    unfold writeParagraphs at hw
    obtain ⟨s2, hm, hw⟩ := Option.bind_eq_some_iff.1 hw
    unfold multiCell at hm
    obtain ⟨lh, hlh, hm⟩ := Option.bind_eq_some_iff.1 hm
    unfold fitNewlineLoop at hfit
    obtain ⟨o1, ho1, hfit⟩ := Option.bind_eq_some_iff.1 hfit
    unfold isFitMultiCell at ho1
    rw [hlh, Option.bind_some] at ho1
    rw [hx, (units_round_trip e.cfg x).1] at hm
    set ex := exOf e s.cur w
    set over := overOf lh h
    have hex : ∀ l v a b, measureTextWidth e s.cur l = some a → measureTextWidth e s.cur [v] = some b →
        ex l v = decide (a + b > w) := exOf_eq e s.cur w
    have hc := loop_calls (r := { w := w, h := h }) (x := x) (c0 := s.cur) ex over hex (fun n => rfl) p [] 0 s s2 ⟨rfl, rfl, rfl⟩
      (by simpa using hm)
    obtain ⟨items, g1, g2, g3, g4, g5, g6, g7, g8, g9⟩ := cells_drawn _ s s2 hp hj hx hc
    have hl0 : 0 ≤ lh := by rw [hLH _ _ _ hlh]; exact hpos _ ⟨rfl, rfl, rfl⟩
    have hadv : fromPoints e.cfg s2.cur.y = fromPoints e.cfg s.cur.y + (broken ex over 0 [] p).1.length * lh := by
      have : ((broken ex over 0 [] p).1.length : ℚ) * toPoints e.cfg lh = toPoints e.cfg ((broken ex over 0 [] p).1.length * lh) := by
        unfold toPoints; split <;> ring
      rw [g7, this, toPoints_sub]
    have hd0 : (0 : ℚ) ≤ (broken ex over 0 [] p).1.length * lh := by positivity
    have hfm : items.flatMap (·.text) = (broken ex over 0 [] p).1.flatten := by rw [List.flatMap_def, g3]
    have hfl : (broken ex over 0 [] p).1.flatten ++ (broken ex over 0 [] p).2 = p := by
      by_cases ht : p = []
      · subst ht; simp [broken]
      · simpa using broken_flatten ex over p [] 0 ht
    have hlen : (items.flatMap (·.text)).length ≤ p.length := by
      rw [hfm]; conv_rhs => rw [← hfl]
      simp
    have hone : (o1.1 = true ↔ items.flatMap (·.text) = p ∧ (broken ex over 0 [] p).1.length * lh ≤ h) ∧
        o1.2 = (broken ex over 0 [] p).1.length * lh := by
      rw [hfm]
      by_cases ht : p = []
      · subst ht
        simp only [fitLoop, Option.some.injEq] at ho1
        subst ho1
        simp [broken]
      · have := fitLoop_eq (r := { w := w, h := h }) (c0 := s.cur) ex over hex (fun n => rfl) p [] 0 o1 ht (by simpa using ho1)
        simp only [Nat.zero_add] at this
        refine ⟨this.1.trans (and_congr_left fun _ => ?_), this.2⟩
        constructor
        · intro h0; rw [h0, List.append_nil] at hfl; exact hfl
        · intro h0; rw [h0] at hfl; simpa using hfl
    have hp2 : s2.page < s2.pages.length := by rw [g1, g2]; simpa using hp
    have hrest : h - (fromPoints e.cfg s2.cur.y - fromPoints e.cfg s.cur.y) = h - (broken ex over 0 [] p).1.length * lh := by
      rw [hadv]; ring
    rw [hrest] at hw
    -- the rest, whatever the answer for this paragraph
    have hpos2 : ∀ c, SameFont c s2.cur → 0 ≤ LH c := fun c hcs => hpos c ⟨hcs.1.trans g5.1, hcs.2.1.trans g5.2.1, hcs.2.2.trans g5.2.2⟩
    by_cases hok : o1.1 = true
    · rw [if_pos hok, hone.2] at hfit
      obtain ⟨a1, a2⟩ := hone.1.1 hok
      have hmeas : ∀ t, measureTextWidth e s.cur t = measureTextWidth e s2.cur t := fun t => (SameFont.measure g5 t).symm
      have hht : ∀ t, measureCellHeight e s.cur t = measureCellHeight e s2.cur t := fun t => (SameFont.height g5 t).symm
      have hfl2 : ∀ (text line : List Nat) (r : Units.Rect) (lh tot : ℚ), fitLoop e s.cur r lh line tot text =
          fitLoop e s2.cur r lh line tot text := by
        intro text
        induction text with
        | nil => intro line r lh tot; rfl
        | cons v rest ih => intro line r lh tot; simp only [fitLoop, hmeas, ih]
      have hnl : ∀ (ps : List (List Nat)) (h : ℚ), fitNewlineLoop e s.cur w h ps = fitNewlineLoop e s2.cur w h ps := by
        intro ps
        induction ps with
        | nil => intro h; rfl
        | cons p ps ih => intro h; simp only [fitNewlineLoop, isFitMultiCell, hht, hfl2, ih]
      rw [hnl] at hfit
      obtain ⟨items2, b1, b2, b4, b5, b6⟩ := ih _ s2 s' o hp2 g8 g6 hpos2 hw hfit (.inr (by linarith))
      refine ⟨items ++ items2, ?_, ?_, ?_, ?_, ?_⟩
      · rw [b1, g2, g1, set_set_append hp, List.map_append]
      · rw [hadv] at b2; linarith
      · simp only [List.flatMap_append, List.length_append, List.flatten_cons]; omega
      · rw [b5, List.flatMap_append, a1, hadv, List.flatten_cons, List.append_cancel_left_eq]
        exact and_congr_right fun _ => ⟨fun _ => by linarith, fun _ => by linarith⟩
      · intro ht
        have := b6 ht
        rw [hadv] at this; linarith
    · rw [if_neg hok] at hfit
      obtain rfl := Option.some.inj hfit
      -- what the rest draws
      have rest : ∀ (ps : List (List Nat)) (h : ℚ) (s s' : St), s.page < s.pages.length → NoJoin s → s.cur.x = toPoints e.cfg x →
          (∀ c, SameFont c s.cur → 0 ≤ LH c) → writeParagraphs e w h s ps = some s' →
          ∃ items : List TextItem, s'.pages = s.pages.set s.page (s.pages.getD s.page [] ++ items.map .text) ∧
            0 ≤ fromPoints e.cfg s'.cur.y - fromPoints e.cfg s.cur.y ∧ (items.flatMap (·.text)).length ≤ ps.flatten.length := by
        intro ps
        induction ps with
        | nil =>
          intro h s s' hp hj hx hpos hw
          obtain rfl : s = s' := by simpa [writeParagraphs] using hw
          refine ⟨[], ?_, by simp, by simp⟩
          have : s.pages.getD s.page [] = s.pages[s.page] := by simp [List.getD_eq_getElem?_getD, hp]
          rw [this]; simp
        | cons p ps ih =>
          intro h s s' hp hj hx hpos hw
          unfold writeParagraphs at hw
          obtain ⟨s2, hm, hw⟩ := Option.bind_eq_some_iff.1 hw
          unfold multiCell at hm
          obtain ⟨lh, hlh, hm⟩ := Option.bind_eq_some_iff.1 hm
          rw [hx, (units_round_trip e.cfg x).1] at hm
          have hc := loop_calls (r := { w := w, h := h }) (x := x) (c0 := s.cur) (exOf e s.cur w) (overOf lh h)
            (exOf_eq e s.cur w) (fun n => rfl) p [] 0 s s2 ⟨rfl, rfl, rfl⟩ (by simpa using hm)
          obtain ⟨items, g1, g2, g3, g4, g5, g6, g7, g8, g9⟩ := cells_drawn _ s s2 hp hj hx hc
          have hl0 : 0 ≤ lh := by rw [hLH _ _ _ hlh]; exact hpos _ ⟨rfl, rfl, rfl⟩
          have hadv : fromPoints e.cfg s2.cur.y = fromPoints e.cfg s.cur.y +
              (broken (exOf e s.cur w) (overOf lh h) 0 [] p).1.length * lh := by
            have : ((broken (exOf e s.cur w) (overOf lh h) 0 [] p).1.length : ℚ) * toPoints e.cfg lh =
                toPoints e.cfg ((broken (exOf e s.cur w) (overOf lh h) 0 [] p).1.length * lh) := by
              unfold toPoints; split <;> ring
            rw [g7, this, toPoints_sub]
          have hd0 : (0 : ℚ) ≤ (broken (exOf e s.cur w) (overOf lh h) 0 [] p).1.length * lh := by positivity
          have hlen : (items.flatMap (·.text)).length ≤ p.length := by
            rw [List.flatMap_def, g3]
            have hfl : (broken (exOf e s.cur w) (overOf lh h) 0 [] p).1.flatten ++
                (broken (exOf e s.cur w) (overOf lh h) 0 [] p).2 = p := by
              by_cases ht : p = []
              · subst ht; simp [broken]
              · simpa using broken_flatten (exOf e s.cur w) (overOf lh h) p [] 0 ht
            conv_rhs => rw [← hfl]
            simp
          obtain ⟨items2, b1, b2, b3⟩ := ih _ s2 s' (by rw [g1, g2]; simpa using hp) g8 g6
            (fun c hcs => hpos c ⟨hcs.1.trans g5.1, hcs.2.1.trans g5.2.1, hcs.2.2.trans g5.2.2⟩) hw
          refine ⟨items ++ items2, ?_, ?_, ?_⟩
          · rw [b1, g2, g1, set_set_append hp, List.map_append]
          · rw [hadv] at b2; linarith
          · simp only [List.flatMap_append, List.length_append, List.flatten_cons]; omega
      obtain ⟨items2, b1, b2, b3⟩ := rest ps _ s2 s' hp2 g8 g6 hpos2 hw
      refine ⟨items ++ items2, ?_, ?_, ?_, ?_, by simp⟩
      · rw [b1, g2, g1, set_set_append hp, List.map_append]
      · rw [hadv] at b2; linarith
      · simp only [List.flatMap_append, List.length_append, List.flatten_cons]; omega
      · simp only [Bool.false_eq_true, false_iff]
        rintro ⟨c1, c2⟩
        apply hok
        rw [List.flatMap_append, List.flatten_cons] at c1
        have hlen2 : (items.flatMap (·.text)).length = p.length := by
          have := congrArg List.length c1
          simp only [List.length_append] at this; omega
        refine hone.1.2 ⟨(List.append_inj c1 hlen2).1, ?_⟩
        rw [hadv] at b2; linarith

private theorem splitNewlines_flatten : ∀ t : List Nat, (splitNewlines t).flatten = t.filter (fun r => decide (r ≠ 10)) := by
  intro t
  induction t with
  | nil => rfl
  | cons c t ih =>
    unfold splitNewlines
    by_cases hc : c = 10
    · subst hc; simp [ih]
    · rw [if_neg hc]
      simp only [List.filter_cons, hc, ne_eq, not_false_eq_true, decide_true, if_true]
      split
      · next heq => rw [heq] at ih; rw [← ih]; rfl
      · next l ls heq => rw [heq] at ih; rw [← ih]; rfl

/-- The pieces of a text between newlines: `parts` joined by newlines is the text, and no part contains one. -/
def IsSplit (parts : List (List Nat)) (text : List Nat) : Prop := (parts.intersperse [10]).flatten = text ∧ ∀ p ∈ parts, 10 ∉ p

theorem splitNewlines_is_split : ∀ text : List Nat, splitNewlines text ≠ [] ∧ IsSplit (splitNewlines text) text := by
  intro t
  induction t with
  | nil => exact ⟨by simp [splitNewlines], by simp [splitNewlines], by simp [splitNewlines]⟩
  | cons c t ih =>
    obtain ⟨h0, h1, h2⟩ := ih
    unfold splitNewlines
    by_cases hc : c = 10
    · subst hc
      rw [if_pos rfl]
      refine ⟨by simp, ?_, ?_⟩
      · cases hs : splitNewlines t with
        | nil => exact absurd hs h0
        | cons l ls => rw [hs] at h1; rw [← h1]; rfl
      · intro p hp
        rcases List.mem_cons.1 hp with rfl | hp
        · simp
        · exact h2 p hp
    · rw [if_neg hc]
      cases hs : splitNewlines t with
      | nil => exact absurd hs h0
      | cons l ls =>
        rw [hs] at h1 h2
        refine ⟨by simp, ?_, ?_⟩
        · rw [← h1]; cases ls <;> rfl
        · intro p hp
          rcases List.mem_cons.1 hp with rfl | hp
          · have := h2 l List.mem_cons_self
            simp only [List.mem_cons, not_or]; exact ⟨fun h => hc h.symm, this⟩
          · exact h2 p (List.mem_cons_of_mem _ hp)

/-- **C41** IsFitMultiCellWithNewline answers true exactly if the parts of the text between newlines, written one below the
other with MultiCell, are drawn completely within the height of the rectangle; the height it then returns is what they take
(fonts whose line height is not negative). -/
theorem is_fit_newline_answers (e : Env) (height ml mt : ℚ) (calls : List Call) (s : St)
    (h : steps e (start height ml mt) calls = some s) (x y : ℚ) (s1 : St) (h1 : step e s (.setXY x y) = some s1)
    (hpos : ∀ lh, measureCellHeight e s.cur [] = some lh → 0 ≤ lh)
    (r : Units.Rect) (text : List Nat) (s' : St) (hm : writeParagraphs e r.w r.h s1 (splitNewlines text) = some s') (fits : Bool)
    (used : ℚ) (hfit : isFitMultiCellWithNewline e s1.cur r text = some (fits, used)) :
    IsSplit (splitNewlines text) text ∧
    ∃ items : List TextItem, s'.pages = s.pages.set s.page (s.pages.getD s.page [] ++ items.map .text) ∧
      (fits = true → used = fromPoints e.cfg s'.cur.y - y) ∧
      (fits = true ↔ items.flatMap (·.text) = text.filter (fun c => decide (c ≠ 10)) ∧ fromPoints e.cfg s'.cur.y - y ≤ r.h) := by
  refine ⟨(splitNewlines_is_split text).2, ?_⟩
  obtain ⟨hp, hj, hpage, hpages, hx, hy, hf, hph, -⟩ := after_set h h1
  unfold isFitMultiCellWithNewline at hfit
  obtain ⟨o, ho, hfit⟩ := Option.map_eq_some_iff.1 hfit
  simp only [Prod.mk.injEq] at hfit
  obtain ⟨rfl, rfl⟩ := hfit
  obtain ⟨items, a1, -, -, a5, a6⟩ := paragraphs_fit (fun c => fromPoints e.cfg
      (typo (e.fonts (c.font + 1)).typoAscender (e.fonts (c.font + 1)) c.fontSize -
      typo (e.fonts (c.font + 1)).typoDescender (e.fonts (c.font + 1)) c.fontSize)) (fun c t lh => height_any)
    (splitNewlines text) r.h s1 s' o hp hj hx (fun c hc => by
      have : measureCellHeight e s.cur [] = some (fromPoints e.cfg
          (typo (e.fonts (s.cur.font + 1)).typoAscender (e.fonts (s.cur.font + 1)) s.cur.fontSize -
          typo (e.fonts (s.cur.font + 1)).typoDescender (e.fonts (s.cur.font + 1)) s.cur.fontSize)) := rfl
      have := hpos _ this
      rw [hc.1, hc.2.1, hf.1, hf.2.1]; exact this) hm ho (.inl (splitNewlines_is_split text).1)
  rw [splitNewlines_flatten, hy, (units_round_trip e.cfg y).1] at a5
  rw [hy, (units_round_trip e.cfg y).1] at a6
  refine ⟨items, by rw [a1, hpage, hpages], fun ht => ?_, a5⟩
  rw [if_pos ht]; exact a6 ht

/-! ### MultiCellWithOption -/

/-- **C41** MultiCellWithOption (Float without Bottom) draws exactly the lines SplitTextWithOption returns, in order, each in a
cell of the requested width (and the height `Wrap.lineBox`), one line height below the line before, with the requested alignment - except that the last line of
a justified text is aligned left - and returns the cursor to where it started, below the last line.  With the default option
no character but newlines is lost. -/
theorem multi_cell_option_draws (e : Env) (height ml mt : ℚ) (calls : List Call) (s : St)
    (h : steps e (start height ml mt) calls = some s) (x y : ℚ) (s1 : St) (h1 : step e s (.setXY x y) = some s1)
    (r : Units.Rect) (text : List Nat) (opt : CellOption) (brk : BreakOption) (tr : Option (Option Nat)) (s' : St)
    (hfl : opt.float &&& 1 ≠ 1) (hm : MultiCellWithOption e s1 r text opt brk tr s') :
    ∃ (lh : ℚ) (lines : List (List Nat)) (items : List TextItem),
      measureCellHeight e s.cur text = some lh ∧ Split.Returns (splitCfg e s.cur r.w brk) text lines ∧
      (brk.mode = .strict → brk.separator = [] → lines.flatten = text.filter (fun r => decide (r ≠ 10))) ∧
      s'.pages = s.pages.set s.page (s.pages.getD s.page [] ++ items.map .text) ∧ items.map (·.text) = lines ∧
      (∀ (k : Nat) (t : TextItem), items[k]? = some t → t.isCell = true ∧ t.cellWidth = (({ w := r.w, h := 0 } : Units.Rect).toPointsT e.cfg.unit).w ∧
        t.cellHeight = (({ w := 0, h := Wrap.lineBox r.h lh lines.length } : Units.Rect).toPointsT e.cfg.unit).h ∧
        t.x = toPoints e.cfg x ∧ t.y = toPoints e.cfg (y + k * lh) ∧ t.font = s.cur.font + 1 ∧ t.fontSize = s.cur.fontSize ∧
        t.opt.border = opt.border ∧
        t.opt.align = if k + 1 = lines.length ∧ opt.align &&& 64 = 64 then (opt.align - 64) ||| 8 else opt.align) ∧
      fromPoints e.cfg s'.cur.x = x ∧ fromPoints e.cfg s'.cur.y = y + lines.length * lh := by
  obtain ⟨hp, hj, hpage, hpages, hx, hy, hf, hph, -⟩ := after_set h h1
  obtain ⟨lh, lines, hlh, hret, hst⟩ := hm
  rw [hx, (units_round_trip e.cfg x).1] at hst
  have hcfg : splitCfg e s1.cur r.w brk = splitCfg e s.cur r.w brk := by
    unfold splitCfg; simp only [hf.measure]
  rw [hcfg] at hret
  obtain ⟨items, g1, g2, g3, g4, g5, g6, g7, -, -⟩ := options_drawn (by simpa [has, bottom] using hfl) lines s1 s' hp hj hx hst
  refine ⟨lh, lines, items, by rw [← hf.height]; exact hlh, hret, fun hs hsep => split_lossless _ hs hsep text lines hret,
    by rw [g1, hpage, hpages], g3, ?_, by rw [g6, (units_round_trip e.cfg x).1], by
      rw [g7, hy, toPoints_mul, (units_round_trip e.cfg _).1]⟩
  intro k t hk
  have q := g4 k t hk
  obtain ⟨c, hc, c1, c2, -⟩ := q.measured.ok
  refine ⟨q.isCell, ?_, ?_, q.x, by rw [q.y, hy, toPoints_mul], by rw [q.font, hf.1], by rw [q.size, hf.2.1], by rw [q.opt], ?_⟩
  · rw [c1]
    rw [q.rect] at hc
    unfold createContent at hc
    split at hc
    · simp at hc
    · obtain rfl := Option.some.inj hc; rfl
  · rw [c2]
    rw [q.rect, startHeight_box] at hc
    unfold createContent at hc
    split at hc
    · simp at hc
    · obtain rfl := Option.some.inj hc; rfl
  · rw [q.opt]
    simp only [lineAlign, has, Content.justify, left, Bool.and_eq_true, decide_eq_true_eq, beq_iff_eq]

/-- **C41** The lines MultiCellWithOption draws (`multi_cell_option_draws`) are a legal wrapping where a line is full if its measured
width and that of the next character are together more than the width asked for; a separator is put where it has room too. -/
theorem option_lines_wrap (e : Env) (c : Cur) (w : ℚ) (brk : BreakOption) (text : List Nat) (lines : List (List Nat))
    (h : Split.Returns (splitCfg e c w brk) text lines) :
    Wrap.Wraps { exceeds := fun l r => decide (w < (measureTextWidth e c l).getD 0 + (measureTextWidth e c [r]).getD 0)
                 indicator := match brk.mode with | .strict => none | .indicator => some brk.indicator
                 separator := brk.separator
                 sepFits := fun l r => decide ((measureTextWidth e c l).getD 0 + (measureTextWidth e c [r]).getD 0 + (measureTextWidth e c brk.separator).getD 0 ≤ w) }
      lines text :=
  split_is_wrapping _ text lines h

/-! ### Concrete cases -/

/-- A font with letters 6 and 7 points wide and lines 10 points high at size 10. -/
def tallEnv : Env := { demoEnv with fonts := fun _ => { demoRunFont with typoAscender := 800, typoDescender := -200 } }

/-- The texts on the first page after a MultiCell at (20, 30), and the cursor. -/
def demoMulti (r : Units.Rect) (text : List Nat) : Option (List (List Nat) × ℚ × ℚ) :=
  (steps tallEnv (start 842 10 10) [.setFont 0 0 10, .setXY 20 30]).bind fun s => (multiCell tallEnv s r text).map fun s' =>
    ((s'.pages.getD 0 []).filterMap fun | .text t => some t.text | _ => none, s'.cur.x, s'.cur.y)

def demoFit (r : Units.Rect) (text : List Nat) : Option (Bool × ℚ) :=
  (steps tallEnv (start 842 10 10) [.setFont 0 0 10, .setXY 20 30]).bind fun s => isFitMultiCell tallEnv s.cur r text

/-- "ABABA" in 13 by 30 points: three lines, of which IsFitMultiCell knows. -/
example : demoMulti { w := 13, h := 30 } [65, 66, 65, 66, 65] = some ([[65, 66], [65, 66], [65]], 20, 60) ∧
    demoFit { w := 13, h := 30 } [65, 66, 65, 66, 65] = some (true, 30) := by
  constructor <;> decide +kernel

/-- **C41** (counterexample to "no loss")  In a rectangle of the height of one line the second line is silently left out. -/
theorem multi_cell_loses_fails : demoMulti { w := 13, h := 19 } [65, 66, 65, 66, 65] = some ([[65, 66]], 20, 40) := by
  decide +kernel

/-- **C41** (counterexample to staying inside)  If the last character begins a new line, that line is drawn below the
rectangle (IsFitMultiCell does answer no). -/
theorem multi_cell_overflows_fails : demoMulti { w := 13, h := 19 } [65, 66, 65] = some ([[65, 66], [65]], 20, 50) ∧
    demoFit { w := 13, h := 19 } [65, 66, 65] = some (false, 20) := by
  constructor <;> decide +kernel

/-- **C41** (counterexample)  A width smaller than the first character: an empty line is drawn first. -/
theorem multi_cell_empty_line_fails : demoMulti { w := 5, h := 30 } [65] = some ([[], [65]], 20, 50) := by decide +kernel

/-- Newlines: "AB", nothing, "A" need two lines; the empty line between takes no height. -/
example : ((steps tallEnv (start 842 10 10) [.setFont 0 0 10, .setXY 20 30]).bind fun s =>
      isFitMultiCellWithNewline tallEnv s.cur { w := 13, h := 25 } [65, 66, 10, 10, 65]) = some (true, 20) ∧
    ((steps tallEnv (start 842 10 10) [.setFont 0 0 10, .setXY 20 30]).bind fun s =>
      (writeParagraphs tallEnv 13 25 s (splitNewlines [65, 66, 10, 10, 65])).map (·.cur.y)) = some 50 ∧
    ((steps tallEnv (start 842 10 10) [.setFont 0 0 10]).bind fun s => measureCellHeight tallEnv s.cur []) = some 10 := by
  refine ⟨?_, ?_, ?_⟩ <;> decide +kernel

/-- MultiCellWithOption, justified, "A\nBA": two lines. -/
example : ∃ s s1 s', steps tallEnv (start 842 10 10) [.setFont 0 0 10] = some s ∧ step tallEnv s (.setXY 20 30) = some s1 ∧
    MultiCellWithOption tallEnv s1 { w := 13, h := 30 } [65, 10, 66, 65] { align := 64 } {} none s' ∧ s'.cur.y = 50 := by
  let s : St := { start 842 10 10 with cur := { (start 842 10 10).cur with fontSize := 10 } }
  let s1 : St := { s with cur := { s.cur with x := 20, y := 30, setXCount := 1 } }
  have h0 : steps tallEnv (start 842 10 10) [.setFont 0 0 10] = some s := rfl
  have h1 : step tallEnv s (.setXY 20 30) = some s1 := by decide +kernel
  have h2 : ((steps tallEnv s1 (optionCalls 13 (startHeight 30 10 2) 10 20 { align := 64, ext := [] ++ transOf s1 none } none
      [[65], [66, 65]])).map (·.cur.y)) = some 50 := by decide +kernel
  obtain ⟨s', hs', hy⟩ := Option.map_eq_some_iff.1 h2
  refine ⟨s, s1, s', h0, h1, ⟨10, [[65], [66, 65]], by decide +kernel, ⟨by decide, 10, by decide +kernel⟩, ?_⟩, hy⟩
  have hx : fromPoints tallEnv.cfg s1.cur.x = 20 := by decide +kernel
  rw [hx]; exact hs'

/-- **C41** (counterexample)  With Float Bottom every line is moved down twice, by the height of the cell and by the line
height: two lines of 10 points in a rectangle of 30 points leave the cursor 57 points lower. -/
theorem multi_cell_float_bottom_fails :
    let s1 : St := { start 842 10 10 with cur := { (start 842 10 10).cur with fontSize := 10, x := 20, y := 30, setXCount := 1 } }
    (steps tallEnv s1 (optionCalls 13 (startHeight 30 10 2) 10 20 { float := 1 } none [[65], [66, 65]])).map (·.cur.y) =
      some (30 + 2 * (10 + (30 - 23 / 2))) := by
  decide +kernel

/-- **C41** (counterexample)  Only the last line of the whole text is taken out of justification: the last line of a paragraph
before a newline is stretched. -/
theorem justified_paragraph_end_fails :
    let calls := optionCalls 100 30 10 20 { align := 64 } none [[65, 32, 66], [66, 65]]
    (calls.filterMap fun | .cellWithOption _ t o _ => some (t, o.align) | _ => none) = [([65, 32, 66], 64), ([66, 65], 8)] := by
  decide

/-- **C41** (counterexample)  Four lines of 10 points in a rectangle 60 points high at y = 30, aligned Bottom: the cell of the last
line ends at 97, below the rectangle; aligned Middle, the middle of the lines (half way between the middles of the first and the last
cell) is 3.5 points below that of the rectangle. -/
theorem multi_cell_vertical_fails :
    let s1 : St := { start 842 10 10 with cur := { (start 842 10 10).cur with fontSize := 10, x := 20, y := 30, setXCount := 1 } }
    ((steps tallEnv s1 (optionCalls 13 (startHeight 60 10 4) 10 20 { align := 1 } none [[65], [66], [65], [66]])).map fun s =>
      (s.pages.getD 0 []).map fun | .text t => (t.y, t.cellHeight) | _ => (0, 0)) = some [(30, 37), (40, 37), (50, 37), (60, 37)] := by
  decide +kernel

end Verif.Props
