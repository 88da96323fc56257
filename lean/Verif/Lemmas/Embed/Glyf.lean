import Verif.Model.Embed
import Verif.Lemmas.TTF
import Mathlib.Data.List.Sort
namespace Verif.Embed
open Verif.TTF

/-! ### Sorting and removing duplicates -/

theorem distinct_spec : ∀ (l : List Nat) (prev : Option Nat), l.Pairwise (· ≤ ·) → (∀ p, prev = some p → ∀ x ∈ l, p ≤ x) →
    (distinct prev l).Pairwise (· < ·) ∧ (∀ p, prev = some p → ∀ x ∈ distinct prev l, p < x) ∧
    ∀ x, x ∈ distinct prev l ↔ x ∈ l ∧ prev ≠ some x := by
  intro l
  induction l with
  | nil => intro prev _ _; simp [distinct]
  | cons g l ih =>
    intro prev hs hp
    rw [List.pairwise_cons] at hs
    by_cases he : prev = some g
    · obtain ⟨i1, i2, i3⟩ := ih prev hs.2 (fun p hpp x hx => hp p hpp x (by simp [hx]))
      simp only [distinct, if_pos he]
      refine ⟨i1, i2, ?_⟩
      intro x
      rw [i3]
      constructor
      · rintro ⟨h1, h2⟩; exact ⟨by simp [h1], h2⟩
      · rintro ⟨h1, h2⟩
        rcases List.mem_cons.1 h1 with rfl | h1
        · exact (h2 he).elim
        · exact ⟨h1, h2⟩
    · obtain ⟨i1, i2, i3⟩ := ih (some g) hs.2 (by rintro p ⟨⟩ x hx; exact hs.1 x hx)
      simp only [distinct, if_neg he]
      refine ⟨?_, ?_, ?_⟩
      · rw [List.pairwise_cons]; exact ⟨fun x hx => i2 g rfl x hx, i1⟩
      · intro p hpp x hx
        have hpg : p ≤ g := hp p hpp g (by simp)
        have : p ≠ g := by rintro rfl; exact he hpp
        rcases List.mem_cons.1 hx with rfl | hx
        · omega
        · have := i2 g rfl x hx; omega
      · intro x
        simp only [List.mem_cons, i3]
        constructor
        · rintro (rfl | ⟨h1, h2⟩)
          · exact ⟨.inl rfl, he⟩
          · refine ⟨.inr h1, ?_⟩
            intro hpx
            have h3 := hp x hpx g (by simp)
            have h4 := hs.1 x h1
            have : x = g := by omega
            subst this; exact h2 rfl
        · rintro ⟨h1, h2⟩
          by_cases hxg : x = g
          · exact .inl hxg
          · rcases h1 with h1 | h1
            · exact .inl h1
            · exact .inr ⟨h1, by simpa using fun e => hxg e.symm⟩

theorem sortNats_sorted (l : List Nat) : (sortNats l).Pairwise (· ≤ ·) := List.pairwise_insertionSort _ l

theorem mem_sortNats (l : List Nat) (x : Nat) : x ∈ sortNats l ↔ x ∈ l := (List.perm_insertionSort _ l).mem_iff

/-- The glyph list used for copying: strictly increasing, same members. -/
theorem distinct_sort (l : List Nat) :
    (distinct none (sortNats l)).Pairwise (· < ·) ∧ ∀ x, x ∈ distinct none (sortNats l) ↔ x ∈ l := by
  obtain ⟨h1, -, h3⟩ := distinct_spec (sortNats l) none (sortNats_sorted l) (by simp)
  exact ⟨h1, fun x => by rw [h3, mem_sortNats]; simp⟩

/-! ### The copy loop -/

/-- What the loop over glyph numbers produces. -/
theorem glyfLoop_spec (f : Font) : ∀ (n idx : Nat) (arr : List Nat) (old : Option Nat) (acc b : Bytes) (l : List Nat),
    arr.Pairwise (· < ·) → (∀ g ∈ arr, idx ≤ g) → (∀ o, old = some o → o < idx) →
    glyfLoop f idx n arr old acc = .ok (b, l) →
    l.length = n + 1 ∧ l[0]? = some acc.length ∧ l[n]? = some b.length ∧ acc <+: b ∧
    ∀ k < n, ∃ x y, l[k]? = some x ∧ l[k + 1]? = some y ∧ x ≤ y ∧ y ≤ b.length ∧
      (idx + k ∈ arr → glyphData f (idx + k) = .ok ((b.drop x).take (y - x))) ∧ (idx + k ∉ arr → x = y) := by
  intro n
  induction n with
  | zero =>
    intro idx arr old acc b l _ _ _ h
    simp only [glyfLoop, Except.ok.injEq, Prod.mk.injEq] at h
    obtain ⟨rfl, rfl⟩ := h
    simp
  | succ n ih =>
    intro idx arr old acc b l hs hge hold h
    -- a common way to finish once the head entry is known
    have fin : ∀ (acc' : Bytes) (arr' : List Nat) (l' : List Nat), acc <+: acc' →
        (l'.length = n + 1 ∧ l'[0]? = some acc'.length ∧ l'[n]? = some b.length ∧ acc' <+: b ∧
          ∀ k < n, ∃ x y, l'[k]? = some x ∧ l'[k + 1]? = some y ∧ x ≤ y ∧ y ≤ b.length ∧
            (idx + 1 + k ∈ arr' → glyphData f (idx + 1 + k) = .ok ((b.drop x).take (y - x))) ∧
            (idx + 1 + k ∉ arr' → x = y)) →
        (∀ k, (idx + 1 + k ∈ arr' ↔ idx + 1 + k ∈ arr)) →
        (idx ∈ arr → glyphData f idx = .ok (acc'.drop acc.length)) → (idx ∉ arr → acc' = acc) →
        l = acc.length :: l' →
        l.length = n + 1 + 1 ∧ l[0]? = some acc.length ∧ l[n + 1]? = some b.length ∧ acc <+: b ∧
        ∀ k < n + 1, ∃ x y, l[k]? = some x ∧ l[k + 1]? = some y ∧ x ≤ y ∧ y ≤ b.length ∧
          (idx + k ∈ arr → glyphData f (idx + k) = .ok ((b.drop x).take (y - x))) ∧ (idx + k ∉ arr → x = y) := by
      intro acc' arr' l' hpre ⟨i1, i2, i3, i4, i5⟩ hmem hin hout hl
      subst hl
      refine ⟨by simp [i1], rfl, by simpa using i3, hpre.trans i4, ?_⟩
      intro k hk
      cases k with
      | zero =>
        obtain ⟨t, rfl⟩ := i4
        obtain ⟨s, rfl⟩ := hpre
        refine ⟨acc.length, (acc ++ s).length, rfl, by simpa using i2, by simp, by simp, ?_, ?_⟩
        · intro hi
          rw [Nat.add_zero] at hi ⊢
          rw [hin hi]
          simp [List.append_assoc]
        · intro hi
          rw [hout hi]
      | succ k =>
        obtain ⟨x, y, h1, h2, h3, h4, h5, h6⟩ := i5 k (by omega)
        refine ⟨x, y, by simpa using h1, by simpa using h2, h3, h4, ?_, ?_⟩
        · intro hi
          rw [show idx + (k + 1) = idx + 1 + k by omega] at hi ⊢
          exact h5 ((hmem k).2 hi)
        · intro hi
          rw [show idx + (k + 1) = idx + 1 + k by omega] at hi
          exact h6 (fun hc => hi ((hmem k).1 hc))
    cases arr with
    | nil =>
      simp only [glyfLoop, bind_ok, pure_ok] at h
      obtain ⟨⟨b', l'⟩, hr, h⟩ := h
      simp only [Prod.mk.injEq] at h
      obtain ⟨rfl, rfl⟩ := h
      have := ih (idx + 1) [] old acc b' l' List.Pairwise.nil (by simp) (fun o ho => by have := hold o ho; omega) hr
      exact fin acc [] l' (List.prefix_refl _) this (by simp) (by simp) (by simp) rfl
    | cons g gs =>
      rw [List.pairwise_cons] at hs
      by_cases hg : g = idx
      · subst hg
        simp only [glyfLoop, true_or, if_true, bind_ok, pure_ok] at h
        obtain ⟨data, hd, ⟨b', l'⟩, hr, h⟩ := h
        simp only [Prod.mk.injEq] at h
        obtain ⟨rfl, rfl⟩ := h
        have := ih (g + 1) gs (some g) (acc ++ data) b' l' hs.2 (fun x hx => hs.1 x hx) (by rintro o ⟨⟩; omega) hr
        refine fin (acc ++ data) gs l' (List.prefix_append _ _) this ?_ ?_ ?_ rfl
        · intro k; simp; omega
        · intro _; simpa using hd
        · intro hn; simp at hn
      · have hold' : old ≠ some g := by
          intro e
          have h1 := hold g e
          have h2 := hge g (by simp)
          omega
        have hlt : idx < g := by have := hge g (by simp); omega
        simp only [glyfLoop, hg, hold', or_self, if_false, bind_ok, pure_ok] at h
        obtain ⟨⟨b', l'⟩, hr, h⟩ := h
        simp only [Prod.mk.injEq] at h
        obtain ⟨rfl, rfl⟩ := h
        have := ih (idx + 1) (g :: gs) old acc b' l' (List.pairwise_cons.2 hs)
          (fun x hx => by
            rcases List.mem_cons.1 hx with rfl | hx
            · omega
            · have := hs.1 x hx; omega)
          (fun o ho => by have := hold o ho; omega) hr
        refine fin acc (g :: gs) l' (List.prefix_refl _) this (fun _ => Iff.rfl) ?_ (fun _ => rfl) rfl
        intro hi
        rcases List.mem_cons.1 hi with rfl | hi
        · exact (hg rfl).elim
        · have := hs.1 _ hi; omega

end Verif.Embed
