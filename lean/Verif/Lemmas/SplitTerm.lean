import Verif.Lemmas.Split
namespace Verif.Split
open Wrap

/-- Without a separator a step never panics. -/
theorem step_not_bad {c : Cfg} (hs : c.hasSep = false) (text : Text) (s : St) : step c text s ≠ .bad := by
  unfold step strictBreak
  simp only [hs]
  split
  · simp
  · split
    · split
      · simp
      · split <;> simp
    · split <;> simp

theorem run_not_bad {c : Cfg} (hs : c.hasSep = false) (text : Text) : ∀ (n : Nat) (r : Res), r ≠ .bad →
    run c text n r ≠ .bad := by
  intro n
  induction n with
  | zero => intro r h; cases r <;> simp_all [run]
  | succ n ih =>
    intro r h
    cases r with
    | running s => exact ih _ (step_not_bad hs text s)
    | finished l => simp [run]
    | bad => exact absurd rfl h

/-- A run that stops with `finished` stays finished. -/
theorem run_mono {c : Cfg} {text : Text} {ls : List Text} : ∀ {n : Nat} {r : Res}, run c text n r = .finished ls →
    ∀ m, n ≤ m → run c text m r = .finished ls := by
  intro n
  induction n with
  | zero =>
    intro r h m _
    cases r with
    | running s => simp [run] at h
    | finished l => rw [run_finished]; simpa [run] using h
    | bad => simp [run] at h
  | succ n ih =>
    intro r h m hm
    cases r with
    | running s =>
      cases m with
      | zero => omega
      | succ m => exact ih h m (by omega)
    | finished l => rw [run_finished]; simpa [run] using h
    | bad => simp [run] at h

theorem run_add {c : Cfg} {text : Text} (n m : Nat) (r : Res) : run c text (n + m) r = run c text m (run c text n r) := by
  induction n generalizing r with
  | zero => cases r <;> simp [run]
  | succ n ih =>
    rw [show n + 1 + m = (n + m) + 1 from by omega]
    cases r with
    | running s => simp only [run]; exact ih _
    | finished l => simp [run, run_finished]
    | bad => simp [run, run_bad]

/-- Weak invariant for progress arguments. -/
structure Pos (c : Cfg) (text : Text) (start : Nat) (s : St) : Prop where
  idx : s.i = start + s.line.length
  le : s.i ≤ text.length
  lineEq : s.line = (text.drop start).take s.line.length
  one : c.hasSep = true → s.line.length = 1 → s.sepIdx = start
  two : c.hasSep = true → 2 ≤ s.line.length → start + 1 ≤ s.sepIdx ∧ s.sepIdx < s.i

/-- What guarantees progress: every character fits on an empty line and, with a separator, two characters of the text
and the separator fit on a line (and the separator comparison is the stronger one). -/
structure Roomy (c : Cfg) (text : Text) : Prop where
  fits : ∀ r ∈ text, r ≠ nl → c.exceeds [] r = false
  sep1 : c.hasSep = true → ∀ r ∈ text, r ≠ nl → c.sepFits [] r = true
  sep2 : c.hasSep = true → ∀ r₁ ∈ text, ∀ r₂ ∈ text, r₁ ≠ nl → r₂ ≠ nl → c.sepFits [r₁] r₂ = true
  stronger : c.hasSep = true → ∀ l r, c.sepFits l r = true → c.exceeds l r = false

def measure (text : Text) (start i : Nat) : Nat := (text.length - start) * (text.length + 1) + (text.length - i)

theorem measure_start {text : Text} {a b i j : Nat} (h : a < b) (hb : b ≤ text.length) (_ : i ≤ text.length) :
    measure text b j < measure text a i := by
  unfold measure
  have : (text.length - b + 1) * (text.length + 1) ≤ (text.length - a) * (text.length + 1) :=
    Nat.mul_le_mul_right _ (by omega)
  rw [Nat.succ_mul] at this
  omega

theorem measure_i {text : Text} {a i : Nat} (h : i < text.length) : measure text a (i + 1) < measure text a i := by
  unfold measure; omega

theorem Pos.new {c : Cfg} {text : Text} {start : Nat} {s : St} (h1 : s.i = start) (h2 : s.line = [])
    (h3 : start ≤ text.length) : Pos c text start s :=
  ⟨by simp [h1, h2], by omega, by simp [h2], by simp [h2], by simp [h2]⟩

theorem step_progress {c : Cfg} {text : Text} (room : Roomy c text) {start : Nat} {s : St} (inv : Pos c text start s)
    (nonl : nl ∉ s.line) (hlt : s.i < text.length) :
    ∃ s' start', step c text s = .running s' ∧ Pos c text start' s' ∧ nl ∉ s'.line ∧
      measure text start' s'.i < measure text start s.i := by
  obtain ⟨r, hr⟩ : ∃ r, text[s.i]? = some r := ⟨_, List.getElem?_eq_getElem hlt⟩
  have hrm : r ∈ text := List.mem_of_getElem? hr
  have hlm : ∀ q ∈ s.line, q ∈ text := by
    intro q hq
    rw [inv.lineEq] at hq
    exact List.mem_of_mem_drop (List.mem_of_mem_take hq)
  have hidx := inv.idx
  have len1 : c.exceeds s.line r = true → r ≠ nl → s.line ≠ [] := by
    intro h1 h2 h3
    rw [h3, room.fits r hrm h2] at h1; simp at h1
  have strictCase : c.exceeds s.line r = true → r ≠ nl → ∃ s' start', strictBreak c s = .running s' ∧
      Pos c text start' s' ∧ nl ∉ s'.line ∧ measure text start' s'.i < measure text start s.i := by
    intro hex hrn
    have hl1 : 0 < s.line.length := List.length_pos_iff.2 (len1 hex hrn)
    unfold strictBreak
    cases hsep : c.hasSep with
    | false =>
      refine ⟨_, s.i, rfl, Pos.new rfl rfl inv.le, by simp, ?_⟩
      exact measure_start (by omega) inv.le inv.le
    | true =>
      have hl2 : 2 ≤ s.line.length := by
        rcases Nat.lt_or_ge s.line.length 2 with h | h
        · exfalso
          match hl : s.line with
          | [] => simp [hl] at hl1
          | [q] =>
            have hq : q ∈ s.line := by simp [hl]
            have := room.stronger hsep _ _
              (room.sep2 hsep q (hlm q hq) r hrm (fun h => nonl (h ▸ hq)) hrn)
            rw [hl, this] at hex; simp at hex
          | _ :: _ :: _ => simp [hl] at h; omega
        · exact h
      obtain ⟨h1, h2⟩ := inv.two hsep hl2
      simp only [if_true]
      rw [if_neg (by omega)]
      refine ⟨_, s.sepIdx, rfl, Pos.new rfl rfl (by omega), by simp, ?_⟩
      exact measure_start (by omega) (by omega) inv.le
  unfold step
  rw [hr]
  simp only []
  split
  · next hc =>
    cases hm : c.mode with
    | strict => exact strictCase hc.1 hc.2
    | indicator =>
      cases hb : breakIndicatorIndex s.line c.indicator with
      | none => exact strictCase hc.1 hc.2
      | some b =>
        obtain ⟨hb0, hbl, _, _⟩ := breakIndicatorIndex_some hb
        refine ⟨_, start + b + 1, rfl, Pos.new ?_ rfl (by omega), by simp, ?_⟩
        · show s.i - (s.line.length - b) + 1 = _; omega
        · exact measure_start (by omega) (by omega) inv.le
  · next hc =>
    split
    · next hn =>
      refine ⟨_, s.i + 1, rfl, Pos.new rfl rfl (by omega), by simp, ?_⟩
      exact measure_start (by omega) (by omega) inv.le
    · next hn =>
      refine ⟨_, start, rfl, ?_, ?_, measure_i hlt⟩
      · refine ⟨by simp; omega, by simp; omega, ?_, ?_, ?_⟩
        · have hd : text.drop start = s.line ++ r :: text.drop (s.i + 1) := by
            have h1 : text.drop start = (text.drop start).take s.line.length ++ (text.drop start).drop s.line.length :=
              (List.take_append_drop _ _).symm
            rw [← inv.lineEq, List.drop_drop, ← hidx] at h1
            rw [h1]
            congr 1
            rw [List.getElem?_eq_getElem hlt] at hr
            rw [← List.getElem_cons_drop hlt, Option.some.inj hr]
          show s.line ++ [r] = _
          rw [hd, List.length_append, List.length_singleton, List.take_length_add_append]
          simp
        · intro h1 h2
          have hl : s.line = [] := by
            simp only [List.length_append, List.length_singleton] at h2
            exact List.length_eq_zero_iff.1 (by omega)
          simp only [h1, Bool.true_and, hl, room.sep1 h1 r hrm hn, if_true]
          rw [hidx, hl]; simp
        · intro h1 h2
          simp only [List.length_append, List.length_singleton] at h2
          show start + 1 ≤ (if _ then _ else _) ∧ (if _ then _ else _) < s.i + 1
          rw [h1, Bool.true_and]
          match hl : s.line with
          | [] => simp [hl] at h2
          | [q] =>
            have hq : q ∈ s.line := by simp [hl]
            rw [room.sep2 h1 q (hlm q hq) r hrm (fun h => nonl (h ▸ hq)) hn]
            simp only [if_true]
            rw [hl] at hidx; simp at hidx; omega
          | x :: y :: z =>
            have := inv.two h1 (by simp [hl])
            split <;> (try simp only [hl, List.length_cons] at hidx) <;> omega
      · show nl ∉ s.line ++ [r]
        intro hm
        rcases List.mem_append.1 hm with h | h
        · exact nonl h
        · simp at h; exact hn h.symm

theorem run_terminates {c : Cfg} {text : Text} (room : Roomy c text) : ∀ (m start : Nat) (s : St), Pos c text start s →
    nl ∉ s.line → measure text start s.i ≤ m → ∃ n ls, run c text n (.running s) = .finished ls := by
  intro m
  induction m with
  | zero =>
    intro start s inv nonl hm
    by_cases hlt : s.i < text.length
    · obtain ⟨s', start', _, _, _, h⟩ := step_progress room inv nonl hlt
      omega
    · refine ⟨1, s.out, ?_⟩
      simp [run, step, List.getElem?_eq_none (Nat.le_of_not_lt hlt)]
  | succ m ih =>
    intro start s inv nonl hm
    by_cases hlt : s.i < text.length
    · obtain ⟨s', start', h1, h2, h3, h4⟩ := step_progress room inv nonl hlt
      obtain ⟨n, ls, h⟩ := ih start' s' h2 h3 (by omega)
      exact ⟨n + 1, ls, by rw [run, h1]; exact h⟩
    · refine ⟨1, s.out, ?_⟩
      simp [run, step, List.getElem?_eq_none (Nat.le_of_not_lt hlt)]

/-! Consequences of a legal wrapping -/

theorem Wraps.placed {o : Opts} (hsep : o.separator = []) {ls : List (List Nat)} {t : List Nat} (h : Wraps o ls t) :
    ∀ l ∈ ls, Placed o.exceeds l := by
  induction h with
  | last l h1 h2 h3 => simpa using h3
  | lastNl l h2 h3 => simpa using h3
  | newline l ls t h1 h2 h3 h4 ih => simpa using ⟨h2, ih⟩
  | soft l ls r t h1 h2 h3 h4 h5 h6 h7 ih => simpa using ⟨h3, ih⟩
  | word a b ls ind r t h1 h2 h3 h4 h5 h6 h7 h8 ih => simpa using ⟨Placed_take h5, ih⟩
  | hyphen a b ls r t h1 => exact absurd hsep h1

/-- Every character was placed on a line it fitted. -/
theorem Wraps.fits {o : Opts} {ls : List (List Nat)} {t : List Nat} (h : Wraps o ls t) :
    ∀ r ∈ t, r ≠ 10 → ∃ pre, o.exceeds pre r = false := by
  have key : ∀ l, Placed o.exceeds l → ∀ r ∈ l, ∃ pre, o.exceeds pre r = false := by
    intro l hl r hr
    obtain ⟨a, b, rfl⟩ := List.append_of_mem hr
    exact ⟨a, hl a r b rfl⟩
  induction h with
  | last l h1 h2 h3 => intro r hr _; exact key l h3 r hr
  | lastNl l h2 h3 =>
    intro r hr hn
    rcases List.mem_append.1 hr with h | h
    · exact key l h3 r h
    · simp at h; exact absurd h hn
  | newline l ls t h1 h2 h3 h4 ih =>
    intro r hr hn
    rcases List.mem_append.1 hr with h | h
    · exact key l h2 r h
    · rcases List.mem_cons.1 h with h | h
      · exact absurd h hn
      · exact ih r h hn
  | soft l ls r t h1 h2 h3 h4 h5 h6 h7 ih =>
    intro r hr hn
    rcases List.mem_append.1 hr with h | h
    · exact key l h3 r h
    · exact ih r h hn
  | word a b ls ind r t h1 h2 h3 h4 h5 h6 h7 h8 ih =>
    intro q hr hn
    rw [show a ++ ind :: (b ++ r :: t) = (a ++ [ind]) ++ (b ++ r :: t) from by simp] at hr
    rcases List.mem_append.1 hr with h | h
    · exact key _ h5 q (by simp at h ⊢; rcases h with h | h <;> simp [h])
    · exact ih q h hn
  | hyphen a b ls r t h1 h2 h3 h4 h5 h6 h7 ih =>
    intro q hr hn
    rcases List.mem_append.1 hr with h | h
    · exact key _ h3 q (by simp [h])
    · exact ih q h hn

theorem filter_no10 {l : List Nat} (h : 10 ∉ l) : l.filter (fun r => decide (r ≠ 10)) = l := by
  rw [List.filter_eq_self]
  intro a ha
  simp only [decide_eq_true_eq]
  intro hc; exact h (hc ▸ ha)

/-- Deleting a set of characters that contains newline, indicator and separator. -/
theorem Wraps.erase {o : Opts} {p : Nat → Bool} (h10 : p 10 = false) (hind : ∀ i, o.indicator = some i → p i = false)
    (hsep : ∀ x ∈ o.separator, p x = false) {ls : List (List Nat)} {t : List Nat} (h : Wraps o ls t) :
    ls.flatten.filter p = t.filter p := by
  induction h with
  | last l h1 h2 h3 => simp
  | lastNl l h2 h3 => simp [h10]
  | newline l ls t h1 h2 h3 h4 ih => simp [h10, ih]
  | soft l ls r t h1 h2 h3 h4 h5 h6 h7 ih => simp [ih]
  | word a b ls ind r t h1 h2 h3 h4 h5 h6 h7 h8 ih =>
    have := hind ind h1
    simp only [List.flatten_cons, List.filter_append, ih, List.filter_cons, this]
    simp
  | hyphen a b ls r t h1 h2 h3 h4 h5 h6 h7 ih =>
    have : o.separator.filter p = [] := by
      rw [List.filter_eq_nil_iff]; intro x hx; simp [hsep x hx]
    simp only [List.flatten_cons, List.filter_append, ih, this]
    simp

theorem Wraps.sublist {o : Opts} (hsep : o.separator = []) {ls : List (List Nat)} {t : List Nat} (h : Wraps o ls t) :
    ls.flatten.Sublist t := by
  induction h with
  | last l h1 h2 h3 => simp
  | lastNl l h2 h3 => simp
  | newline l ls t h1 h2 h3 h4 ih =>
    simp only [List.flatten_cons]
    exact (List.Sublist.refl l).append (ih.cons _)
  | soft l ls r t h1 h2 h3 h4 h5 h6 h7 ih =>
    simp only [List.flatten_cons]
    exact (List.Sublist.refl l).append ih
  | word a b ls ind r t h1 h2 h3 h4 h5 h6 h7 h8 ih =>
    simp only [List.flatten_cons]
    exact (List.Sublist.refl a).append (ih.cons _)
  | hyphen a b ls r t h1 => exact absurd hsep h1

theorem paragraphs_prefix {l : List Nat} (h : 10 ∉ l) (t : List Nat) :
    paragraphs (l ++ 10 :: t) = l :: paragraphs t := by
  induction l with
  | nil => simp [paragraphs]
  | cons a l ih =>
    have h1 : a ≠ 10 := fun hc => h (by simp [hc])
    have h2 : 10 ∉ l := fun hc => h (by simp [hc])
    simp [paragraphs, ih h2, h1]

theorem paragraphs_single {l : List Nat} (h : 10 ∉ l) (hl : l ≠ []) : paragraphs l = [l] := by
  induction l with
  | nil => exact absurd rfl hl
  | cons a l ih =>
    have h1 : a ≠ 10 := fun hc => h (by simp [hc])
    have h2 : 10 ∉ l := fun hc => h (by simp [hc])
    cases l with
    | nil => simp [paragraphs, h1]
    | cons b l => rw [paragraphs, if_neg h1, ih h2 (by simp)]

theorem paragraphs_extend {l : List Nat} (h : 10 ∉ l) {t p : List Nat} {ps : List (List Nat)}
    (ht : paragraphs t = p :: ps) : paragraphs (l ++ t) = (l ++ p) :: ps := by
  induction l with
  | nil => simpa using ht
  | cons a l ih =>
    have h1 : a ≠ 10 := fun hc => h (by simp [hc])
    have h2 : 10 ∉ l := fun hc => h (by simp [hc])
    simp [paragraphs, ih h2, h1]

/-- In strict mode the lines group into paragraphs. -/
theorem Wraps.grouped {o : Opts} (hsep : o.separator = []) (hind : o.indicator = none)
    {ls : List (List Nat)} {t : List Nat} (h : Wraps o ls t) :
    ∃ groups : List (List (List Nat)), groups.flatten = ls ∧ groups.map List.flatten = paragraphs t ∧
      ∀ g ∈ groups, g ≠ [] := by
  induction h with
  | last l h1 h2 h3 => exact ⟨[[l]], by simp, by simp [paragraphs_single h2 h1], by simp⟩
  | lastNl l h2 h3 => exact ⟨[[l]], by simp, by rw [paragraphs_prefix h2]; simp [paragraphs], by simp⟩
  | newline l ls t h1 h2 h3 h4 ih =>
    obtain ⟨g, hg1, hg2, hg3⟩ := ih
    refine ⟨[l] :: g, by simp [hg1], by rw [paragraphs_prefix h1]; simp [hg2], ?_⟩
    simpa using hg3
  | soft l ls r t h1 h2 h3 h4 h5 h6 h7 ih =>
    obtain ⟨g, hg1, hg2, hg3⟩ := ih
    match g with
    | [] =>
      simp only [List.map_nil] at hg2
      simp only [paragraphs] at hg2
      split at hg2 <;> try simp at hg2
      split at hg2 <;> simp at hg2
    | x :: xs =>
      refine ⟨(l :: x) :: xs, by simpa using hg1, ?_, ?_⟩
      · simp only [List.map_cons] at hg2
        rw [paragraphs_extend h2 hg2.symm]; simp
      · intro q hq
        rcases List.mem_cons.1 hq with h | h
        · simp [h]
        · exact hg3 q (by simp [h])
  | word a b ls ind r t h1 => simp [hind] at h1
  | hyphen a b ls r t h1 => exact absurd hsep h1

theorem Wraps.no_newline {o : Opts} (hsep : 10 ∉ o.separator) {ls : List (List Nat)} {t : List Nat} (h : Wraps o ls t) :
    ∀ l ∈ ls, 10 ∉ l := by
  induction h with
  | last l h1 h2 h3 => simpa using h2
  | lastNl l h2 h3 => simpa using h2
  | newline l ls t h1 h2 h3 h4 ih => simpa using ⟨h1, ih⟩
  | soft l ls r t h1 h2 h3 h4 h5 h6 h7 ih => simpa using ⟨h2, ih⟩
  | word a b ls ind r t h1 h2 h3 h4 h5 h6 h7 h8 ih =>
    intro l hl
    rcases List.mem_cons.1 hl with rfl | hl
    · exact fun hc => h4 (List.mem_append.2 (Or.inl hc))
    · exact ih l hl
  | hyphen a b ls r t h1 h2 h3 h4 h5 h6 h7 ih =>
    intro l hl
    rcases List.mem_cons.1 hl with rfl | hl
    · intro hc
      rcases List.mem_append.1 hc with h | h
      · exact h2 (List.mem_append.2 (Or.inl h))
      · exact hsep h
    · exact ih l hl

end Verif.Split
