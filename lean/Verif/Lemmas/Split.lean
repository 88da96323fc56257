import Verif.Model.Split
import Verif.Spec.Wrap
namespace Verif.Split
open Wrap

/-- The specification's view of the options. -/
def Cfg.opts (c : Cfg) : Opts :=
  { exceeds := c.exceeds
    indicator := match c.mode with
      | .strict => none
      | .indicator => some c.indicator
    separator := c.separator
    sepFits := c.sepFits }

theorem breakIdxAux_some {text : Text} {bi : Nat} : ∀ {n k : Nat}, breakIndicatorIndexAux text bi n = some k →
    0 < k ∧ k ≤ n ∧ text[k]? = some bi ∧ ∀ j, k < j → j ≤ n → text[j]? ≠ some bi := by
  intro n
  induction n with
  | zero => intro k h; simp [breakIndicatorIndexAux] at h
  | succ n ih =>
    intro k h
    unfold breakIndicatorIndexAux at h
    split at h
    · next hh =>
      simp at h; subst h
      exact ⟨by omega, by omega, hh, fun j h1 h2 => by omega⟩
    · next hh =>
      obtain ⟨h1, h2, h3, h4⟩ := ih h
      refine ⟨h1, by omega, h3, fun j hj1 hj2 => ?_⟩
      by_cases hj : j = n + 1
      · subst hj; exact hh
      · exact h4 j hj1 (by omega)

theorem breakIdxAux_none {text : Text} {bi : Nat} : ∀ {n : Nat}, breakIndicatorIndexAux text bi n = none →
    ∀ j, 0 < j → j ≤ n → text[j]? ≠ some bi := by
  intro n
  induction n with
  | zero => intro _ j h1 h2; omega
  | succ n ih =>
    intro h j h1 h2
    unfold breakIndicatorIndexAux at h
    split at h
    · simp at h
    · next hh =>
      by_cases hj : j = n + 1
      · subst hj; exact hh
      · exact ih h j h1 (by omega)

/-- A found break index splits the line as `a ++ ind :: b` with `a ≠ []` and no further indicator in `b`. -/
theorem breakIndicatorIndex_some {line : Text} {bi b : Nat} (h : breakIndicatorIndex line bi = some b) :
    0 < b ∧ b < line.length ∧ line = line.take b ++ bi :: line.drop (b + 1) ∧ bi ∉ line.drop (b + 1) := by
  obtain ⟨h1, h2, h3, h4⟩ := breakIdxAux_some h
  have hlt : b < line.length := by
    rcases Nat.lt_or_ge b line.length with h | h
    · exact h
    · rw [List.getElem?_eq_none h] at h3; simp at h3
  refine ⟨h1, hlt, ?_, ?_⟩
  · have : line[b] = bi := by rw [List.getElem?_eq_getElem hlt] at h3; simpa using h3
    rw [← this, List.getElem_cons_drop, List.take_append_drop]
  · intro hm
    obtain ⟨j, hj, hjb⟩ := List.getElem_of_mem hm
    rw [List.getElem_drop] at hjb
    have hj' : j < line.length - (b + 1) := by simpa using hj
    exact h4 (b + 1 + j) (by omega) (by omega) (by rw [List.getElem?_eq_getElem (by omega), hjb])

theorem breakIndicatorIndex_none {line : Text} {bi : Nat} (h : breakIndicatorIndex line bi = none) :
    ∀ k, 0 < k → line[k]? ≠ some bi := by
  intro k hk
  by_cases hl : k ≤ line.length - 1
  · exact breakIdxAux_none h k hk hl
  · rw [List.getElem?_eq_none (by omega)]; simp

theorem Placed_nil (e : List Nat → Nat → Bool) : Placed e [] := by
  intro pre r post h; simp at h

theorem Placed_snoc {e : List Nat → Nat → Bool} {l : List Nat} {r : Nat} (h : Placed e l) (hr : e l r = false) :
    Placed e (l ++ [r]) := by
  intro pre q post heq
  rcases List.eq_nil_or_concat post with rfl | ⟨post', z, rfl⟩
  · have := List.append_inj' heq (by simp)
    obtain ⟨h1, h2⟩ := this
    simp at h2; subst h1; subst h2; exact hr
  · have : l ++ [r] = (pre ++ q :: post') ++ [z] := by simpa using heq
    have := List.append_inj' this (by simp)
    exact h pre q post' this.1

theorem Placed_take {e : List Nat → Nat → Bool} {a b : List Nat} (h : Placed e (a ++ b)) : Placed e a := by
  intro pre r post heq
  exact h pre r (post ++ b) (by rw [heq]; simp)

/-- The loop's invariant: the current line is the contiguous piece of text from `start` to `i`. -/
structure Inv (c : Cfg) (text : Text) (start : Nat) (s : St) : Prop where
  idx : s.i = start + s.line.length
  le : s.i ≤ text.length
  split : text.drop start = s.line ++ text.drop s.i
  placed : Placed c.exceeds s.line
  nonl : nl ∉ s.line
  sep : c.mode = .strict → c.hasSep = true →
    s.sepIdx ≤ start ∨ (s.sepIdx < s.i ∧ ∃ q, s.line[s.sepIdx - start]? = some q ∧
      c.sepFits (s.line.take (s.sepIdx - start)) q = true)

theorem Inv.fresh {c : Cfg} {text : Text} {start : Nat} {s : St} (hi : s.i = start) (hl : s.line = [])
    (hle : start ≤ text.length) (hs : c.mode = .strict → c.hasSep = true → s.sepIdx ≤ start) :
    Inv c text start s :=
  { idx := by simp [hl, hi], le := by omega, split := by simp [hl, hi], placed := by rw [hl]; exact Placed_nil _,
    nonl := by simp [hl], sep := fun h1 h2 => Or.inl (hs h1 h2) }

theorem run_finished (c : Cfg) (text : Text) (n : Nat) (ls : List Text) :
    run c text n (.finished ls) = .finished ls := by cases n <;> rfl

theorem run_bad (c : Cfg) (text : Text) (n : Nat) : run c text n .bad = .bad := by cases n <;> rfl

/-- Run from an exhausted state. -/
theorem run_end {c : Cfg} {text : Text} {s : St} (h : text.length ≤ s.i) {n : Nat} {ls : List Text}
    (hr : run c text n (.running s) = .finished ls) : ls = s.out := by
  cases n with
  | zero => simp [run] at hr
  | succ n =>
    have : step c text s = .finished s.out := by simp [step, List.getElem?_eq_none h]
    rw [run, this, run_finished] at hr
    exact (Res.finished.inj hr).symm

/-- Main refinement: whatever the loop returns is a legal wrapping. -/
theorem run_wraps (c : Cfg) (text : Text) (n : Nat) : ∀ (s : St) (start : Nat) (lines : List Text),
    Inv c text start s → s.i < text.length → run c text n (.running s) = .finished lines →
    ∃ ls, lines = s.out ++ ls ∧ Wraps c.opts ls (text.drop start) := by
  induction n with
  | zero => intro s start lines _ _ h; simp [run] at h
  | succ n ih =>
    intro s start lines inv hlt h
    obtain ⟨r, hr⟩ : ∃ r, text[s.i]? = some r := ⟨_, List.getElem?_eq_getElem hlt⟩
    have hrest : text.drop s.i = r :: text.drop (s.i + 1) := by
      rw [List.getElem?_eq_getElem hlt] at hr
      rw [← List.getElem_cons_drop hlt, Option.some.inj hr]
    have hdrop : text.drop start = s.line ++ r :: text.drop (s.i + 1) := by rw [inv.split, hrest]
    have hstart : start ≤ s.i := by have := inv.idx; omega
    have fresh : ∀ (s' : St) (st : Nat), run c text n (.running s') = .finished lines → s'.i = st → s'.line = [] →
        st < text.length → (c.mode = .strict → c.hasSep = true → s'.sepIdx ≤ st) →
        ∃ ls, lines = s'.out ++ ls ∧ Wraps c.opts ls (text.drop st) := by
      intro s' st h1 h2 h3 h4 h5
      exact ih s' st lines (Inv.fresh h2 h3 (by omega) h5) (by omega) h1
    -- a strict break
    have strictCase : c.exceeds s.line r = true → r ≠ nl →
        (∀ ind, c.opts.indicator = some ind → ∀ k, 0 < k → s.line[k]? ≠ some ind) →
        run c text n (strictBreak c s) = .finished lines →
        ∃ ls, lines = s.out ++ ls ∧ Wraps c.opts ls (text.drop start) := by
      intro hex hrn hind h
      unfold strictBreak at h
      by_cases hsep : c.hasSep = true
      · rw [if_pos hsep] at h
        simp only [] at h
        split at h
        · rw [run_bad] at h; simp at h
        · next hk =>
          have hk1 : ¬ ((s.line.length : Int) - ((s.i : Int) - (s.sepIdx : Int)) < 0) := fun h' => hk (Or.inl h')
          have hk2 : ¬ ((s.line.length : Int) < (s.line.length : Int) - ((s.i : Int) - (s.sepIdx : Int))) :=
            fun h' => hk (Or.inr h')
          have hidx := inv.idx
          have hge : start ≤ s.sepIdx := by omega
          have hle2 : s.sepIdx ≤ s.i := by omega
          have hkeep : ((s.line.length : Int) - ((s.i : Int) - (s.sepIdx : Int))).toNat = s.sepIdx - start := by omega
          rw [hkeep] at h
          obtain ⟨ls, hls, hw⟩ := fresh _ s.sepIdx h rfl rfl (by omega) (fun _ _ => Nat.le_refl _)
          refine ⟨(s.line.take (s.sepIdx - start) ++ c.separator) :: ls, by simp [hls], ?_⟩
          have hsp : text.drop start = s.line.take (s.sepIdx - start) ++
              (s.line.drop (s.sepIdx - start) ++ r :: text.drop (s.i + 1)) := by
            rw [← List.append_assoc, List.take_append_drop, hdrop]
          have hd2 : text.drop s.sepIdx = s.line.drop (s.sepIdx - start) ++ r :: text.drop (s.i + 1) := by
            have : text.drop s.sepIdx = (text.drop start).drop (s.sepIdx - start) := by
              rw [List.drop_drop]; congr 1; omega
            rw [this, hdrop, List.drop_append_of_le_length (by omega)]
          rw [hsp]
          rw [hd2] at hw
          refine Wraps.hyphen _ _ ls r _ ?_ ?_ ?_ ?_ hrn ?_ hw
          · simpa [Cfg.hasSep, Cfg.opts] using hsep
          · rw [List.take_append_drop]; exact inv.nonl
          · rw [List.take_append_drop]; exact inv.placed
          · rw [List.take_append_drop]; exact hex
          · intro hne hnone
            have hm : c.mode = .strict := by
              revert hnone; simp only [Cfg.opts]; cases c.mode <;> simp
            rcases inv.sep hm hsep with hle3 | ⟨hlt3, q, hq, hf⟩
            · exfalso; apply hne
              have : s.sepIdx - start = 0 := by omega
              rw [this]; rfl
            · exact ⟨q, by rw [List.head?_drop]; exact hq, hf⟩
      · rw [if_neg hsep] at h
        have hse : c.separator = [] := by simpa [Cfg.hasSep] using hsep
        obtain ⟨ls, hls, hw⟩ := fresh _ s.i h rfl rfl hlt (fun _ h => absurd h hsep)
        refine ⟨s.line :: ls, by simp [hls], ?_⟩
        rw [hdrop]
        rw [hrest] at hw
        exact Wraps.soft _ _ r _ hse inv.nonl inv.placed hex hrn hind hw
    rw [run] at h
    unfold step at h
    rw [hr] at h
    simp only [] at h
    split at h
    · next hc =>
      obtain ⟨hex, hrn⟩ := hc
      cases hm : c.mode with
      | strict =>
        rw [hm] at h
        exact strictCase hex hrn (by intro ind hi; simp [Cfg.opts, hm] at hi) h
      | indicator =>
        rw [hm] at h
        simp only [] at h
        cases hb : breakIndicatorIndex s.line c.indicator with
        | none =>
          rw [hb] at h
          refine strictCase hex hrn ?_ h
          intro ind hi
          simp [Cfg.opts, hm] at hi; subst hi
          exact breakIndicatorIndex_none hb
        | some b =>
          rw [hb] at h
          simp only [] at h
          obtain ⟨hb0, hbl, hbs, hbn⟩ := breakIndicatorIndex_some hb
          have hidx := inv.idx
          have hnew : s.i - (s.line.length - b) + 1 = start + b + 1 := by omega
          rw [hnew] at h
          obtain ⟨ls, hls, hw⟩ := fresh _ (start + b + 1) h rfl rfl (by omega) (fun h => by rw [hm] at h; simp at h)
          refine ⟨s.line.take b :: ls, by simp [hls], ?_⟩
          have hd2 : text.drop (start + b + 1) = s.line.drop (b + 1) ++ r :: text.drop (s.i + 1) := by
            have : text.drop (start + b + 1) = (text.drop start).drop (b + 1) := by
              rw [List.drop_drop]; congr 1
            rw [this, hdrop, List.drop_append_of_le_length (by omega)]
          rw [hd2] at hw
          have hsp : text.drop start = s.line.take b ++ c.indicator ::
              (s.line.drop (b + 1) ++ r :: text.drop (s.i + 1)) := by
            rw [hdrop]
            conv => lhs; rw [hbs]
            simp
          rw [hsp]
          refine Wraps.word _ _ ls c.indicator r _ ?_ ?_ hbn ?_ ?_ ?_ hrn hw
          · simp [Cfg.opts, hm]
          · intro h0
            have := congrArg List.length h0
            rw [List.length_take] at this
            simp only [List.length_nil] at this
            omega
          · rw [← hbs]; exact inv.nonl
          · rw [← hbs]; exact inv.placed
          · rw [← hbs]; exact hex
    · next hc =>
      split at h
      · next hn =>
        -- newline
        subst hn
        by_cases hend : s.i + 1 < text.length
        · obtain ⟨ls, hls, hw⟩ := fresh _ (s.i + 1) h rfl rfl hend (fun h1 h2 => by
              show s.sepIdx ≤ s.i + 1
              rcases inv.sep h1 h2 with h | h <;> omega)
          refine ⟨s.line :: ls, by simp [hls], ?_⟩
          rw [hdrop]
          refine Wraps.newline _ ls _ inv.nonl inv.placed ?_ hw
          intro h0
          have := congrArg List.length h0
          simp at this; omega
        · have hd : text.drop (s.i + 1) = [] := List.drop_eq_nil_of_le (by omega)
          have := run_end (by simp; omega) h
          refine ⟨[s.line], by simpa using this, ?_⟩
          rw [hdrop, hd]
          exact Wraps.lastNl _ inv.nonl inv.placed
      · next hn =>
        have hex : c.exceeds s.line r = false := by
          simp only [not_and, Decidable.not_not] at hc
          cases hcx : c.exceeds s.line r with
          | false => rfl
          | true => exact absurd (hc hcx) hn
        have hpl := Placed_snoc inv.placed hex
        have hnn : nl ∉ s.line ++ [r] := by
          intro hm
          rcases List.mem_append.1 hm with h | h
          · exact inv.nonl h
          · simp at h; exact hn h.symm
        by_cases hend : s.i = text.length - 1
        · have hd : text.drop (s.i + 1) = [] := List.drop_eq_nil_of_le (by omega)
          have := run_end (by simp; omega) h
          refine ⟨[s.line ++ [r]], by simpa [hend] using this, ?_⟩
          rw [hdrop, hd]
          exact Wraps.last _ (by simp) hnn hpl
        · have hidx := inv.idx
          have hinv : Inv c text start
              { s with
                out := if s.i = text.length - 1 then s.out ++ [s.line ++ [r]] else s.out
                sepIdx := if c.hasSep && c.sepFits s.line r then s.i else s.sepIdx
                line := s.line ++ [r]
                i := s.i + 1 } := by
            refine ⟨by simp; omega, by simp; omega, by simp [hdrop], hpl, hnn, ?_⟩
            intro h1 h2
            simp only [h2, Bool.true_and]
            by_cases hf : c.sepFits s.line r = true
            · right
              rw [if_pos hf]
              have e : s.i - start = s.line.length := by omega
              refine ⟨by simp, r, ?_, ?_⟩
              · rw [e]; simp
              · rw [e]; simpa using hf
            · rw [if_neg hf]
              rcases inv.sep h1 h2 with h | ⟨h3, q, h4, h5⟩
              · exact Or.inl h
              · right
                have hl : s.sepIdx - start < s.line.length := by
                  rcases Nat.lt_or_ge (s.sepIdx - start) s.line.length with h | h
                  · exact h
                  · rw [List.getElem?_eq_none h] at h4; simp at h4
                refine ⟨by show _ < s.i + 1; omega, q, ?_, ?_⟩
                · rw [List.getElem?_append_left hl]; exact h4
                · rw [List.take_append_of_le_length (by omega)]; exact h5
          obtain ⟨ls, hls, hw⟩ := ih _ start lines hinv (by show s.i + 1 < _; omega) h
          refine ⟨ls, ?_, hw⟩
          rw [hls]; simp [hend]

end Verif.Split
