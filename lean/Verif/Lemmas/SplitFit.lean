import Verif.Lemmas.Split
/- Every line of a wrapping was compared with the width, with its separator. -/
namespace Verif.Split
open Wrap

/-- Every character of the line fitted, or the line ends with the separator, which fitted after it, one more character, and possibly
others before it. -/
def FitLine (c : Cfg) (text l : Text) : Prop :=
  ((∀ x ∈ l, x ∈ text) ∧ Placed c.exceeds l) ∨
  ∃ a, l = a ++ c.separator ∧ (∀ x ∈ a, x ∈ text) ∧
    (a = [] ∨ ∃ u q, (∀ x ∈ u, x ∈ text) ∧ q ∈ text ∧ c.sepFits (u ++ a) q = true)

private structure FInv (c : Cfg) (text : Text) (start : Nat) (s : St) : Prop where
  idx : s.i = start + s.line.length
  line : s.line = (text.drop start).take s.line.length
  placed : Placed c.exceeds s.line
  sep : s.sepIdx ≤ start ∨ ∃ u q, (∀ x ∈ u, x ∈ text) ∧ q ∈ text ∧ c.sepFits (u ++ (text.drop start).take (s.sepIdx - start)) q = true
  out : ∀ l ∈ s.out, FitLine c text l

private theorem mem_piece {text : Text} {k n : Nat} : ∀ x ∈ (text.drop k).take n, x ∈ text :=
  fun x hx => List.mem_of_mem_drop (List.mem_of_mem_take hx)

/-- A later start. -/
private theorem sep_later {c : Cfg} {text : Text} {start start' k : Nat} (h : start ≤ start')
    (hs : k ≤ start ∨ ∃ u q, (∀ x ∈ u, x ∈ text) ∧ q ∈ text ∧ c.sepFits (u ++ (text.drop start).take (k - start)) q = true) :
    k ≤ start' ∨ ∃ u q, (∀ x ∈ u, x ∈ text) ∧ q ∈ text ∧ c.sepFits (u ++ (text.drop start').take (k - start')) q = true := by
  by_cases hk : k ≤ start'
  · exact .inl hk
  · rcases hs with hs | ⟨u, q, h1, h2, h3⟩
    · exact .inl (by omega)
    · refine .inr ⟨u ++ (text.drop start).take (start' - start), q, ?_, h2, ?_⟩
      · intro x hx
        rcases List.mem_append.1 hx with hx | hx
        · exact h1 x hx
        · exact mem_piece x hx
      · have : (text.drop start).take (k - start) = (text.drop start).take (start' - start) ++ (text.drop start').take (k - start') := by
          rw [show k - start = (start' - start) + (k - start') by omega, List.take_add, List.drop_drop]
          congr 3
          omega
        rw [List.append_assoc, ← this]
        exact h3

private theorem strictBreak_fit {c : Cfg} {text : Text} {start : Nat} {s s' : St} (h : FInv c text start s) (hs : strictBreak c s = .running s') :
    ∃ start', FInv c text start' s' := by
  have hline : ∀ x ∈ s.line, x ∈ text := by rw [h.line]; exact mem_piece
  unfold strictBreak at hs
  by_cases hsep : c.hasSep = true
  · rw [if_pos hsep] at hs
    simp only [] at hs
    split at hs
    · cases hs
    · next hk =>
      obtain rfl := Res.running.inj hs
      have hidx := h.idx
      have hkeep : ((s.line.length : Int) - ((s.i : Int) - (s.sepIdx : Int))).toNat = s.sepIdx - start := by omega
      refine ⟨s.sepIdx, ⟨by simp, by simp, Placed_nil _, .inl (le_refl _), ?_⟩⟩
      intro l hl
      rcases List.mem_append.1 hl with hl | hl
      · exact h.out l hl
      · obtain rfl := List.mem_singleton.1 hl
        rw [hkeep]
        refine .inr ⟨_, rfl, fun x hx => hline x (List.mem_of_mem_take hx), ?_⟩
        rcases h.sep with h1 | ⟨u, q, h1, h2, h3⟩
        · left
          rw [show s.sepIdx - start = 0 by omega]; rfl
        · refine .inr ⟨u, q, h1, h2, ?_⟩
          rw [h.line, List.take_take, Nat.min_eq_left (by omega)]
          exact h3
  · rw [if_neg hsep] at hs
    obtain rfl := Res.running.inj hs
    refine ⟨s.i, ⟨by simp, by simp, Placed_nil _, sep_later (by have := h.idx; omega) h.sep, ?_⟩⟩
    intro l hl
    rcases List.mem_append.1 hl with hl | hl
    · exact h.out l hl
    · obtain rfl := List.mem_singleton.1 hl
      exact .inl ⟨hline, h.placed⟩

private theorem step_fit {c : Cfg} {text : Text} {start : Nat} {s s' : St} (h : FInv c text start s) (hs : step c text s = .running s') :
    ∃ start', FInv c text start' s' := by
  have hline : ∀ x ∈ s.line, x ∈ text := by rw [h.line]; exact mem_piece
  have hidx := h.idx
  unfold step at hs
  cases hr : text[s.i]? with
  | none => rw [hr] at hs; cases hs
  | some r =>
    rw [hr] at hs
    simp only [] at hs
    have hlt : s.i < text.length := (List.getElem?_eq_some_iff.1 hr).1
    split at hs
    · next hc =>
      cases hm : c.mode with
      | strict =>
        rw [hm] at hs
        exact strictBreak_fit h hs
      | indicator =>
        rw [hm] at hs
        simp only [] at hs
        cases hb : breakIndicatorIndex s.line c.indicator with
        | none =>
          rw [hb] at hs
          exact strictBreak_fit h hs
        | some b =>
          rw [hb] at hs
          obtain rfl := Res.running.inj hs
          obtain ⟨hb0, hbl, hbs, hbn⟩ := breakIndicatorIndex_some hb
          have hnew : s.i - (s.line.length - b) + 1 = start + b + 1 := by omega
          refine ⟨start + b + 1, ⟨by simp [hnew], by simp, Placed_nil _, sep_later (by omega) h.sep, ?_⟩⟩
          intro l hl
          rcases List.mem_append.1 hl with hl | hl
          · exact h.out l hl
          · obtain rfl := List.mem_singleton.1 hl
            refine .inl ⟨fun x hx => hline x (List.mem_of_mem_take hx), ?_⟩
            have hp := h.placed
            rw [← List.take_append_drop b s.line] at hp
            exact Placed_take hp
    · next hc =>
      split at hs
      · obtain rfl := Res.running.inj hs
        refine ⟨s.i + 1, ⟨by simp, by simp, Placed_nil _, sep_later (by omega) h.sep, ?_⟩⟩
        intro l hl
        rcases List.mem_append.1 hl with hl | hl
        · exact h.out l hl
        · obtain rfl := List.mem_singleton.1 hl
          exact .inl ⟨hline, h.placed⟩
      · next hn =>
        have hex : c.exceeds s.line r = false := by
          cases he : c.exceeds s.line r with
          | false => rfl
          | true => exact absurd ⟨he, hn⟩ hc
        have hpl := Placed_snoc h.placed hex
        have hr' : r ∈ text := List.mem_of_getElem? hr
        have hmem : ∀ x ∈ s.line ++ [r], x ∈ text := by
          intro x hx
          rcases List.mem_append.1 hx with hx | hx
          · exact hline x hx
          · obtain rfl := List.mem_singleton.1 hx
            exact hr'
        obtain rfl := Res.running.inj hs
        refine ⟨start, ⟨by simp; omega, ?_, hpl, ?_, ?_⟩⟩
        · simp only [List.length_append, List.length_cons, List.length_nil, Nat.zero_add]
          rw [List.take_add_one, ← h.line, List.getElem?_drop, ← hidx, hr]
          rfl
        · simp only []
          split
          · next hf =>
            refine .inr ⟨[], r, by simp, hr', ?_⟩
            rw [hidx, Nat.add_sub_cancel_left, ← h.line]
            simp only [Bool.and_eq_true] at hf
            simpa using hf.2
          · exact h.sep
        · intro l hl
          simp only [] at hl
          split at hl
          · rcases List.mem_append.1 hl with hl | hl
            · exact h.out l hl
            · obtain rfl := List.mem_singleton.1 hl
              exact .inl ⟨hmem, hpl⟩
          · exact h.out l hl

private theorem run_fit {c : Cfg} {text : Text} : ∀ (n : Nat) {start : Nat} {s : St} {lines : List Text}, FInv c text start s →
    run c text n (.running s) = .finished lines → ∀ l ∈ lines, FitLine c text l
  | 0, _, _, _, _, hr => by simp [run] at hr
  | n + 1, start, s, lines, h, hr => by
    rw [run] at hr
    cases hs : step c text s with
    | running s' =>
      rw [hs] at hr
      obtain ⟨st, h'⟩ := step_fit h hs
      exact run_fit n h' hr
    | bad => rw [hs, run_bad] at hr; cases hr
    | finished ls =>
      rw [hs, run_finished] at hr
      obtain rfl := Res.finished.inj hr
      have : ls = s.out := by
        have hr2 : run c text 1 (.running s) = .finished ls := by simp [run, hs]
        unfold step at hs
        cases hr : text[s.i]? with
        | none => rw [hr] at hs; exact (Res.finished.inj hs).symm
        | some r =>
          rw [hr] at hs
          simp only [strictBreak] at hs
          repeat (split at hs <;> try cases hs)
      rw [this]
      exact h.out

/-- Of a text, whatever the options. -/
theorem returns_fit {c : Cfg} {text : Text} {lines : List Text} (h : Returns c text lines) : ∀ l ∈ lines, FitLine c text l := by
  obtain ⟨-, n, hn⟩ := h
  exact run_fit n (start := 0) ⟨rfl, by simp, Placed_nil _, .inl (le_refl _), by simp⟩ hn

end Verif.Split
