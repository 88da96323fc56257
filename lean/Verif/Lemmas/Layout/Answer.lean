import Verif.Props.Panics
/- With a page and a font the layout functions answer. -/
set_option maxRecDepth 10000
namespace Verif.Layout
open Typeset (texts Loaded Good GoodFace Instead Setting setting accepted startsPage needsFont needsPage Possible)
open Props (IsScalar)
open Content (BreakOption)

section
variable {base : Content.Env} {prot : Bool} {ml mt : ℚ}

/-- A current font. -/
structure Ready (base : Content.Env) (prot : Bool) (ml mt : ℚ) (l : Log) : Prop where
  reached : Reached base prot ml mt l
  font : (setting l.calls).face ≠ none

theorem act_some {l : Log} (h : Ready base prot ml mt l) {c : Typeset.Call} (hm : Makes IsScalar c) (hc : Possible c)
    (hp : needsPage c = true → l.calls.countP startsPage ≠ 0) : ∃ l', l.act base c = some l' ∧ Ready base prot ml mt l' ∧
      l'.calls.countP startsPage = l.calls.countP startsPage ∧ setting l'.calls = setting l.calls := by
  have hn := Props.call_panics h.reached.run h.reached.ok h.reached.faces c hc
  have : Typeset.step base l.s c ≠ none := by
    rw [Ne, hn]
    rintro (⟨-, hx⟩ | ⟨hx, hy⟩)
    · exact h.font hx
    · exact hp hx hy
  obtain ⟨p, hs⟩ := Option.ne_none_iff_exists'.1 this
  have ha : l.act base c = some ⟨p.1, l.calls ++ [c], l.drawn ++ p.2.toList⟩ := by simp [Log.act, hs]
  have hf := act_from ha
  have hset := hf.setting (by simpa using hm.1)
  refine ⟨_, ha, ⟨h.reached.makes hf (by simpa using hm), by rw [hset]; exact h.font⟩, ?_, hset⟩
  simp [List.countP_append, hm.1.page]

/-- MeasureTextWidth and MeasureCellHeightByText. -/
theorem width_some {l : Log} (h : Ready base prot ml mt l) {t : List Nat} (ht : ∀ r ∈ t, IsScalar r) :
    (∃ w, l.s.measureWidth base t = some w) ∧ ∃ lh, l.s.measureHeight base t = some lh := by
  have hn := Typeset.addChars_panic h.reached t
  have : l.s.addChars t ≠ none := fun hx => h.font (hn.1 hx)
  obtain ⟨⟨fonts, out⟩, ha⟩ := Option.ne_none_iff_exists'.1 this
  obtain ⟨x, x1, x2, x3, x4, x5, -⟩ := h.reached.chars ht ha
  have vals : ∀ r ∈ out, ∃ g, x.map.val r = some g := by
    intro r hr
    obtain ⟨j, hj, e⟩ := List.getElem_of_mem hr
    have := (List.forall₂_iff_get.1 x4).2 j (by rw [(List.forall₂_iff_get.1 x4).1]; exact hj) hj
    simp only [List.get_eq_getElem, e] at this
    exact ⟨_, this.choose_spec.1⟩
  have hc : ∀ size cs rect, ∃ q, Content.createContent x.font out size cs rect = some q := by
    intro size cs rect
    obtain ⟨n, hn⟩ := sum_ok x2 x3 (Content.spaceWidth x.font size cs) out vals 0 (0, 0)
    unfold Content.createContent
    rw [hn]
    cases rect <;> exact ⟨_, rfl⟩
  constructor
  · unfold Typeset.St.measureWidth
    rw [ha]
    simp only [Option.bind_some, Content.measureTextWidth, x5]
    obtain ⟨q, hq⟩ := hc l.s.prog.content.cur.fontSize l.s.prog.content.cur.charSpacing none
    exact ⟨_, by rw [hq]; rfl⟩
  · unfold Typeset.St.measureHeight
    rw [ha]
    simp only [Option.bind_some, Content.measureCellHeight, x5]
    obtain ⟨q, hq⟩ := hc l.s.prog.content.cur.fontSize l.s.prog.content.cur.charSpacing none
    exact ⟨_, by rw [hq]; rfl⟩

theorem possible_measure {t : List Nat} (ht : ∀ r ∈ t, IsScalar r) : Possible (.measure t) := ⟨ht, trivial⟩

theorem measure_some {l : Log} (h : Ready base prot ml mt l) {t : List Nat} (ht : ∀ r ∈ t, IsScalar r) : ∃ w l', l.measure base t = some (w, l') ∧
    l.s.measureWidth base t = some w ∧ Ready base prot ml mt l' ∧ l'.calls.countP startsPage = l.calls.countP startsPage ∧ setting l'.calls = setting l.calls := by
  obtain ⟨⟨w, hw⟩, -⟩ := width_some h ht
  obtain ⟨l', h1, h2, h3, h4⟩ := act_some h (c := .measure t) ⟨trivial, ht⟩ (possible_measure ht) (by simp [needsPage])
  exact ⟨w, l', by simp [Log.measure, hw, h1], hw, h2, h3, h4⟩

theorem acts_some : ∀ (cs : List Typeset.Call) {l : Log}, Ready base prot ml mt l → (∀ c ∈ cs, Makes IsScalar c ∧ Possible c) →
    l.calls.countP startsPage ≠ 0 → ∃ l', l.acts base cs = some l' ∧ Ready base prot ml mt l' ∧
      l'.calls.countP startsPage = l.calls.countP startsPage ∧ setting l'.calls = setting l.calls
  | [], l, h, _, _ => ⟨l, rfl, h, rfl, rfl⟩
  | c :: cs, l, h, hc, hp => by
    obtain ⟨l1, a1, a2, a3, a4⟩ := act_some h (hc c (by simp)).1 (hc c (by simp)).2 (fun _ => hp)
    obtain ⟨l2, b1, b2, b3, b4⟩ := acts_some cs a2 (fun c hx => hc c (by simp [hx])) (by rw [a3]; exact hp)
    exact ⟨l2, by simp [Log.acts, a1, b1], b2, b3.trans a3, b4.trans a4⟩

theorem possible_br (lh : ℚ) : Makes IsScalar (.other (.plain (.br lh))) ∧ Possible (.other (.plain (.br lh))) :=
  ⟨⟨trivial, trivial⟩, trivial, rfl, by simp [Program.docOp, Program.plainCall]⟩

theorem possible_setX (x : ℚ) : Makes IsScalar (.other (.plain (.setX x))) ∧ Possible (.other (.plain (.setX x))) :=
  ⟨⟨trivial, trivial⟩, trivial, rfl, by simp [Program.docOp, Program.plainCall]⟩

theorem line_some {l : Log} (h : Ready base prot ml mt l) (hp : l.calls.countP startsPage ≠ 0) {w lh x : ℚ} {line : List Nat}
    (ht : ∀ r ∈ line, IsScalar r) : ∃ l', lineAndBreak base l w lh x line = some l' ∧ Ready base prot ml mt l' ∧
      l'.calls.countP startsPage = l.calls.countP startsPage ∧ setting l'.calls = setting l.calls := by
  refine acts_some _ h ?_ hp
  intro c hc
  simp only [List.mem_cons, List.not_mem_nil, or_false] at hc
  rcases hc with rfl | rfl | rfl
  · exact ⟨⟨trivial, ht⟩, ht, trivial⟩
  · exact possible_br lh
  · exact possible_setX x

theorem multiCellLoop_some {r : Units.Rect} {lh x : ℚ} : ∀ (rest : List Nat) {l : Log} {line : List Nat} {total : ℚ}, Ready base prot ml mt l →
    l.calls.countP startsPage ≠ 0 → (∀ c ∈ line, IsScalar c) → (∀ c ∈ rest, IsScalar c) → ∃ l', multiCellLoop base r lh x l line total rest = some l'
  | [], l, line, total, _, _, _, _ => ⟨l, rfl⟩
  | v :: rest, l, line, total, h, hp, hl, hr => by
    simp only [multiCellLoop]
    split
    · exact ⟨l, rfl⟩
    obtain ⟨a, l1, a1, -, a2, a3, -⟩ := measure_some h hl
    obtain ⟨b, l2, b1, -, b2, b3, -⟩ := measure_some a2 (t := [v]) (by simpa using hr v (by simp))
    have hp2 : l2.calls.countP startsPage ≠ 0 := by rw [b3, a3]; exact hp
    have h3 : ∃ l3, (if a + b > r.w then lineAndBreak base l2 r.w lh x line else some l2) = some l3 ∧ Ready base prot ml mt l3 ∧
        l3.calls.countP startsPage ≠ 0 := by
      split
      · obtain ⟨l3, c1, c2, c3, -⟩ := line_some (w := r.w) (lh := lh) (x := x) b2 hp2 hl
        exact ⟨l3, c1, c2, by rw [c3]; exact hp2⟩
      · exact ⟨l2, rfl, b2, hp2⟩
    obtain ⟨l3, c1, c2, c3⟩ := h3
    have hline : ∀ c ∈ (if a + b > r.w then [] else line) ++ [v], IsScalar c := by
      intro c hc
      rcases List.mem_append.1 hc with hc | hc
      · split at hc
        · simp at hc
        · exact hl c hc
      · rw [List.mem_singleton] at hc; rw [hc]; exact hr v (by simp)
    simp only [a1, b1, Option.bind_some, c1]
    split
    · obtain ⟨l4, d1, -⟩ := line_some (w := r.w) (lh := lh) (x := x) c2 c3 hline
      exact ⟨l4, d1⟩
    · exact multiCellLoop_some rest c2 c3 hline (fun c hc => hr c (by simp [hc]))

theorem fitLoop_some {r : Units.Rect} {lh : ℚ} : ∀ (rest : List Nat) {l : Log} {line : List Nat} {total : ℚ}, Ready base prot ml mt l →
    (∀ c ∈ line, IsScalar c) → (∀ c ∈ rest, IsScalar c) → ∃ q, fitLoop base r lh l line total rest = some q
  | [], l, line, total, _, _, _ => ⟨_, rfl⟩
  | v :: rest, l, line, total, h, hl, hr => by
    simp only [fitLoop]
    split
    · exact ⟨_, rfl⟩
    obtain ⟨a, l1, a1, -, a2, -, -⟩ := measure_some h hl
    obtain ⟨b, l2, b1, -, b2, -, -⟩ := measure_some a2 (t := [v]) (by simpa using hr v (by simp))
    simp only [a1, b1, Option.bind_some]
    refine fitLoop_some rest b2 ?_ (fun c hc => hr c (by simp [hc]))
    intro c hc
    rcases List.mem_append.1 hc with hc | hc
    · split at hc
      · simp at hc
      · exact hl c hc
    · rw [List.mem_singleton] at hc; rw [hc]; exact hr v (by simp)

theorem chars_some {l : Log} (h : Ready base prot ml mt l) {t : List Nat} (ht : ∀ r ∈ t, IsScalar r) : ∃ p, l.s.addChars t = some p ∧ ∀ r ∈ p.2, IsScalar r := by
  have hn := Typeset.addChars_panic h.reached t
  have : l.s.addChars t ≠ none := fun hx => h.font (hn.1 hx)
  obtain ⟨⟨fonts, out⟩, ha⟩ := Option.ne_none_iff_exists'.1 this
  obtain ⟨x, x1, x2, x3, x4, x5, -⟩ := h.reached.chars ht ha
  exact ⟨_, ha, Instead.scalar x3 x4 ht⟩

/-! ### SplitTextWithOption -/

theorem splitLoop_some {l0 : Log} {w sw : ℚ} {b : BreakOption} {text : List Nat} {f : List Nat → ℚ} (hP : ∀ r ∈ text, IsScalar r)
    (hf : ∀ m, Reached base prot ml mt m → setting m.calls = setting l0.calls → ∀ u, (∀ c ∈ u, c ∈ text) → ∀ v, m.s.measureWidth base u = some v → v = f u) :
    ∀ (n : Nat) {l : Log} {t : Split.St} {lines : List (List Nat)}, Ready base prot ml mt l → setting l.calls = setting l0.calls →
    SInv (indicatorOf b) b.separator text t → Split.run (measuring b w sw f) text n (.running t) = .finished lines →
    ∃ l', splitLoop base w sw b text n l t = some (l', lines) ∧ Ready base prot ml mt l' ∧ l'.calls.countP startsPage = l.calls.countP startsPage
  | 0, l, t, lines, _, _, _, h => by simp [Split.run] at h
  | n + 1, l, t, lines, hl, hset, hi, h => by
    simp only [splitLoop]
    rw [Split.run] at h
    cases hr : text[t.i]? with
    | none =>
      have : Split.step (measuring b w sw f) text t = .finished t.out := by unfold Split.step; rw [hr]
      rw [this, run_finished] at h
      obtain rfl := Split.Res.finished.inj h
      exact ⟨l, rfl, hl, rfl⟩
    | some r =>
      have hlt : t.i < text.length := (List.getElem?_eq_some_iff.1 hr).1
      have hline := hi.line_mem hlt
      obtain ⟨a, l1, a1, a5, a2, a3, a4⟩ := measure_some hl (fun x hx => hP x (hline x hx))
      obtain ⟨v, l2, b1, b5, b2, b3, b4⟩ := measure_some a2 (t := [r]) (by simpa using hP r (List.mem_of_getElem? hr))
      have e1 : a = f t.line := hf l hl.reached hset t.line hline a a5
      have e2 : v = f [r] := hf l1 a2.reached (a4.trans hset) [r] (by simpa using List.mem_of_getElem? hr) v b5
      have hp := step_pass (b := b) (w := w) (sw := sw) (f := f) hr
      rw [← e1, ← e2] at hp
      have hstep := step_inv (c := pass b w sw (a + v)) (ind := indicatorOf b) (text := text) (by
        intro hm
        simp only [pass] at hm
        simp [indicatorOf, hm, pass]) hi hlt
      simp only [a1, b1, Option.bind_some]
      rw [← hp] at h
      cases hx : Split.step (pass b w sw (a + v)) text t with
      | running t' =>
        rw [hx] at h
        obtain ⟨l', c1, c2, c3⟩ := splitLoop_some hP hf n b2 (b4.trans (a4.trans hset)) (hstep.1 t' hx) h
        exact ⟨l', c1, c2, c3.trans (b3.trans a3)⟩
      | finished ls => exact absurd hx (hstep.2 ls)
      | bad => rw [hx] at h; cases n <;> simp [Split.run] at h

end

end Verif.Layout
