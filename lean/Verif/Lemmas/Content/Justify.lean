import Verif.Lemmas.Content.Advance
import Mathlib.Algebra.Order.Floor.Ring
/- Justified text. -/
namespace Verif.Content
open Paint Drawing
open TextRun (RunFont withIndex tjLoop sumWidth glyphWidth toPdfUnit kernBefore utf8Len)

/-- Byte offset of character `k`. -/
def off (text : List Nat) (k : Nat) : Nat := ((text.take k).map utf8Len).sum

theorem utf8Len_pos (r : Nat) : 0 < utf8Len r := by
  unfold utf8Len; split <;> (try split) <;> (try split) <;> omega

theorem withIndex_range : ∀ (text : List Nat) (i : Nat),
    withIndex i text = (List.range text.length).map fun k => (i + off text k, text.getD k 0) := by
  intro text
  induction text with
  | nil => intro i; rfl
  | cons r text ih =>
    intro i
    rw [withIndex, ih, List.length_cons, List.range_succ_eq_map, List.map_cons, List.map_map]
    congr 1
    apply List.map_congr_left
    intro k _
    simp [off, Nat.add_assoc]

theorem off_lt (text : List Nat) : ∀ {j k : Nat}, j < k → j < text.length → off text j < off text k := by
  induction text with
  | nil => intro j k _ h; simp at h
  | cons r text ih =>
    intro j k hjk hj
    cases k with
    | zero => omega
    | succ k =>
      cases j with
      | zero => have := utf8Len_pos r; simp [off]; omega
      | succ j =>
        have := ih (j := j) (k := k) (by omega) (by simpa using hj)
        simp only [off, List.take_succ_cons, List.map_cons, List.sum_cons] at this ⊢
        omega

/-- The bounds found by `nonSpaceBounds`. -/
theorem bounds_fold : ∀ (l : List (Nat × Nat)) (b : Int × Int), (b.1 = -1 ∨ 0 ≤ b.1) →
    l.foldl (fun b p => if p.2 ≠ 32 then (if b.1 < 0 then (p.1 : Int) else b.1, (p.1 : Int)) else b) b =
      (if b.1 < 0 then ((l.filter (·.2 ≠ 32)).head?.map fun p => (p.1 : Int)).getD b.1 else b.1,
       ((l.filter (·.2 ≠ 32)).getLast?.map fun p => (p.1 : Int)).getD b.2) := by
  intro l
  induction l with
  | nil => intro b _; simp
  | cons p l ih =>
    intro b hb
    rw [List.foldl_cons]
    by_cases hp : p.2 = 32
    · have h1 : ¬ (p.2 ≠ 32) := by simp [hp]
      rw [if_neg h1, ih b hb, List.filter_cons_of_neg (by simp [hp])]
    · rw [if_pos hp, ih _ (by split <;> [(right; simp); (right; omega)]), List.filter_cons_of_pos (by simp [hp])]
      ext
      · simp only [List.head?_cons, Option.map_some, Option.getD_some]
        rcases hb with hb | hb
        · simp [hb]
        · rw [if_neg (by omega), if_neg (by omega)]
      · simp [List.getLast?_cons]

/-- A gap lies strictly between two characters that are not spaces. -/
theorem gap_iff (l : List (Nat × Nat)) (hl : l.Pairwise fun a b => a.1 < b.1) (p : Nat × Nat) :
    let b := l.foldl (fun b p => if p.2 ≠ 32 then (if b.1 < 0 then (p.1 : Int) else b.1, (p.1 : Int)) else b) ((-1, -1) : Int × Int)
    isGap b.1 b.2 p = true ↔ p.2 = 32 ∧ (∃ q ∈ l, q.2 ≠ 32 ∧ q.1 < p.1) ∧ ∃ q ∈ l, q.2 ≠ 32 ∧ p.1 < q.1 := by
  intro b
  have hb : b = _ := bounds_fold l (-1, -1) (.inl rfl)
  have hns : (l.filter (·.2 ≠ 32)).Pairwise fun a b => a.1 < b.1 := hl.filter _
  cases hf : l.filter (·.2 ≠ 32) with
  | nil =>
    have hno : ∀ q ∈ l, ¬ q.2 ≠ 32 := by
      intro q hq hq2
      have : q ∈ l.filter (·.2 ≠ 32) := by simp [hq, hq2]
      rw [hf] at this; simp at this
    rw [hf] at hb
    constructor
    · intro h
      simp [isGap, hb] at h
      omega
    · rintro ⟨-, ⟨q, hq, hq2, -⟩, -⟩
      exact absurd hq2 (hno q hq)
  | cons a rest =>
    rw [hf] at hb hns
    obtain ⟨z, hz⟩ : ∃ z, (a :: rest).getLast? = some z := ⟨(a :: rest).getLast (by simp), List.getLast?_eq_some_getLast _⟩
    have hza : z ∈ a :: rest := List.mem_of_getLast? hz
    have mem : ∀ q ∈ a :: rest, q ∈ l ∧ q.2 ≠ 32 := by
      intro q hq
      rw [← hf] at hq
      simpa using hq
    have hb1 : b.1 = a.1 := by rw [hb]; simp
    have hb2 : b.2 = z.1 := by rw [hb, hz]; simp
    have hmin : ∀ q ∈ a :: rest, a.1 ≤ q.1 := by
      intro q hq
      rcases List.mem_cons.1 hq with rfl | hq
      · exact le_refl _
      · exact (List.rel_of_pairwise_cons hns hq).le
    have hmax : ∀ q ∈ a :: rest, q.1 ≤ z.1 := by
      intro q hq
      obtain ⟨ys, hys⟩ := List.getLast?_eq_some_iff.1 hz
      rw [hys] at hns hq
      rw [List.mem_append, List.mem_singleton] at hq
      rcases hq with hq | rfl
      · exact ((List.pairwise_append.1 hns).2.2 q hq z (by simp)).le
      · exact le_refl _
    have hmem' : ∀ q ∈ l, q.2 ≠ 32 → q ∈ a :: rest := by
      intro q hq hq2; rw [← hf]; simp [hq, hq2]
    simp only [isGap, hb1, hb2, decide_eq_true_eq]
    constructor
    · rintro ⟨h1, h2, h3⟩
      exact ⟨h1, ⟨a, (mem a (by simp)).1, (mem a (by simp)).2, by exact_mod_cast h2⟩,
        ⟨z, (mem z hza).1, (mem z hza).2, by exact_mod_cast h3⟩⟩
    · rintro ⟨h1, ⟨q, hq, hq2, hq3⟩, ⟨q', hq', hq2', hq3'⟩⟩
      have m1 := hmin q (hmem' q hq hq2)
      have m2 := hmax q' (hmem' q' hq' hq2')
      exact ⟨h1, by exact_mod_cast (show a.1 < p.1 by omega), by exact_mod_cast (show p.1 < z.1 by omega)⟩

theorem withIndex_pairwise (text : List Nat) : (withIndex 0 text).Pairwise fun a b => a.1 < b.1 := by
  rw [withIndex_range, List.pairwise_map]
  refine List.Pairwise.imp_of_mem ?_ (List.pairwise_lt_range)
  intro a b ha hb hab
  have := off_lt text hab (by simpa using ha)
  simpa using this

/-- The gaps are the spaces between words. -/
theorem gap_interior (text : List Nat) (k : Nat) (hk : k < text.length) :
    isGap (nonSpaceBounds text).1 (nonSpaceBounds text).2 (0 + off text k, text.getD k 0) = interior text k := by
  rw [Bool.eq_iff_iff]
  have h := gap_iff (withIndex 0 text) (withIndex_pairwise text) (0 + off text k, text.getD k 0)
  refine Iff.trans h ?_
  have hget : text[k]? = some (text.getD k 0) := by
    rw [List.getD_eq_getElem?_getD, List.getElem?_eq_getElem hk]; simp
  have mono : ∀ j, j < text.length → (off text j < off text k ↔ j < k) := by
    intro j hj
    constructor
    · intro h
      by_contra hc
      rcases Nat.lt_or_eq_of_le (Nat.le_of_not_lt hc) with h2 | h2
      · have := off_lt text h2 hk; omega
      · subst h2; omega
    · intro h; exact off_lt text h hj
  have mono' : ∀ j, j < text.length → (off text k < off text j ↔ k < j) := by
    intro j hj
    constructor
    · intro h
      by_contra hc
      rcases Nat.lt_or_eq_of_le (Nat.le_of_not_lt hc) with h2 | h2
      · have := off_lt text h2 hj; omega
      · subst h2; omega
    · intro h; exact off_lt text h hk
  simp only [withIndex_range, List.mem_map, List.mem_range, interior, Bool.and_eq_true, List.any_eq_true, beq_iff_eq, hget,
    Option.some.injEq, decide_eq_true_eq, and_assoc]
  refine and_congr Iff.rfl (and_congr ?_ ?_)
  · constructor
    · rintro ⟨q, ⟨j, hj, rfl⟩, h1, h2⟩
      have hjk := (mono j hj).1 (by simpa using h2)
      refine ⟨text.getD j 0, ?_, h1⟩
      rw [List.mem_take_iff_getElem]
      refine ⟨j, by omega, ?_⟩
      simp [List.getD_eq_getElem?_getD, List.getElem?_eq_getElem hj]
    · rintro ⟨c, hc, h1⟩
      rw [List.mem_take_iff_getElem] at hc
      obtain ⟨j, hj, rfl⟩ := hc
      have hj' : j < text.length := by omega
      refine ⟨_, ⟨j, hj', rfl⟩, ?_, ?_⟩
      · simpa [List.getD_eq_getElem?_getD, List.getElem?_eq_getElem hj'] using h1
      · have := (mono j hj').2 (by omega); simpa using this
  · constructor
    · rintro ⟨q, ⟨j, hj, rfl⟩, h1, h2⟩
      have hjk := (mono' j hj).1 (by simpa using h2)
      refine ⟨text.getD j 0, ?_, h1⟩
      rw [List.mem_drop_iff_getElem]
      refine ⟨j - (k + 1), by omega, ?_⟩
      simp only [List.getD_eq_getElem?_getD, List.getElem?_eq_getElem hj, Option.getD_some]
      congr 1; omega
    · rintro ⟨c, hc, h1⟩
      rw [List.mem_drop_iff_getElem] at hc
      obtain ⟨j, hj, rfl⟩ := hc
      have hj' : k + 1 + j < text.length := by omega
      refine ⟨_, ⟨k + 1 + j, hj', rfl⟩, ?_, ?_⟩
      · simpa [List.getD_eq_getElem?_getD, List.getElem?_eq_getElem hj'] using h1
      · have := (mono' (k + 1 + j) hj').2 (by omega); simpa using this

theorem count_interior (text : List Nat) (k : Nat) (hk : k ≤ text.length) :
    ((withIndex 0 text).take k).countP (isGap (nonSpaceBounds text).1 (nonSpaceBounds text).2) = interiorBefore text k := by
  rw [withIndex_range, ← List.map_take, List.take_range, Nat.min_eq_left hk, List.countP_map]
  unfold interiorBefore
  apply List.countP_congr
  intro j hj
  simp only [Function.comp]
  rw [gap_interior text j (by have := List.mem_range.1 hj; omega)]

theorem length_withIndex (text : List Nat) (i : Nat) : (withIndex i text).length = text.length := by
  have := congrArg List.length (withIndex_snd text i); simpa using this

theorem interiorSpaceCount_eq (text : List Nat) : interiorSpaceCount text = interiorBefore text text.length := by
  rw [← count_interior text text.length (le_refl _), List.take_of_length_le (by rw [length_withIndex])]
  unfold interiorSpaceCount
  simp only
  split
  · next hneg =>
    -- no character other than spaces
    symm
    rw [List.countP_eq_zero]
    intro p hp hg
    have h := (gap_iff (withIndex 0 text) (withIndex_pairwise text) p).1 hg
    obtain ⟨-, ⟨q, hq, hq2, -⟩, -⟩ := h
    have hb := bounds_fold (withIndex 0 text) (-1, -1) (.inl rfl)
    unfold nonSpaceBounds at hneg
    rw [hb] at hneg
    cases hf : (withIndex 0 text).filter (·.2 ≠ 32) with
    | nil =>
      have : q ∈ (withIndex 0 text).filter (·.2 ≠ 32) := by simp [hq, hq2]
      rw [hf] at this; simp at this
    | cons a rest => rw [hf] at hneg; simp at hneg; omega
  · rfl

/-- Positions in justified and plain text. -/
theorem positions_loop (wd : Widths) (g : GState) (f : RunFont) (font : Nat) (size : ℚ) (a first last : Int) :
    ∀ (l : List (Nat × Nat)) (left : Nat × Nat) (pen : ℚ × ℚ) (d : ℚ), (∀ p ∈ l, (f.map.val p.2).isSome) → ∀ (k : Nat),
    (positions (show' wd g font size (pen.1 + d, pen.2) ((tjLoop f (some (a, first, last)) left l).map tjItem)).2)[k]? =
      (positions (show' wd g font size pen ((tjLoop f none left l).map tjItem)).2)[k]?.map fun p =>
        (p.1 + (d + (l.take k).countP (isGap first last) * -((a : ℚ) / 1000 * size)), p.2) := by
  intro l
  induction l with
  | nil => intro left pen d _ k; simp [tjLoop, show', positions]
  | cons p l ih =>
    intro left pen d hall k
    obtain ⟨i, r⟩ := p
    obtain ⟨c, hc⟩ := Option.isSome_iff_exists.1 (hall (i, r) (by simp))
    simp only at hc
    have hall' : ∀ p ∈ l, (f.map.val p.2).isSome := fun q hq => hall q (by simp [hq])
    -- kerning moves both pens
    obtain ⟨δ, hδ⟩ : ∃ δ : ℚ, ∀ (pen : ℚ × ℚ) (rest : List TextShow.Item),
        show' wd g font size pen (((if kernBefore f i r c left ≠ 0 then [TextRun.TJ.adj (-kernBefore f i r c left)] else []).map tjItem) ++ rest) =
        show' wd g font size (pen.1 + δ, pen.2) rest := by
      split
      · exact ⟨(kernBefore f i r c left : ℚ) / 1000 * size, fun pen rest => by
          simp only [List.map_cons, List.map_nil, tjItem, List.singleton_append, show']
          congr 2; push_cast; ring⟩
      · exact ⟨0, fun pen rest => by simp⟩
    by_cases hgap : r = 32 ∧ (i : Int) > first ∧ (i : Int) < last
    · have hg : isGap first last (i, r) = true := by simpa [isGap] using hgap
      simp only [tjLoop, hc, if_pos hgap, List.map_append, List.append_assoc, hδ, List.map_cons, List.map_nil, tjItem,
        List.singleton_append, List.nil_append, show', List.cons_append]
      cases k with
      | zero => simp [positions]; ring
      | succ k =>
        simp only [positions, List.filterMap_cons, List.getElem?_cons_succ, List.take_succ_cons]
        rw [List.countP_cons_of_pos hg]
        have := ih (r, c) (pen.1 + δ + wd font c / 1000 * size + g.charSpace, pen.2) (d - (a : ℚ) / 1000 * size) hall' k
        simp only [positions] at this
        have e1 : pen.1 + d + δ + wd font c / 1000 * size + g.charSpace - (a : ℚ) / 1000 * size =
          pen.1 + δ + wd font c / 1000 * size + g.charSpace + (d - (a : ℚ) / 1000 * size) := by ring
        rw [e1, this]
        congr 1
        funext p
        congr 1
        push_cast; ring
    · have hg : ¬ isGap first last (i, r) = true := by simpa [isGap] using hgap
      simp only [tjLoop, hc, if_neg hgap, List.map_append, List.append_assoc, hδ, List.map_cons, List.map_nil, tjItem,
        List.singleton_append, List.nil_append, show']
      cases k with
      | zero => simp [positions]; ring
      | succ k =>
        simp only [positions, List.filterMap_cons, List.getElem?_cons_succ, List.take_succ_cons]
        rw [List.countP_cons_of_neg hg]
        have := ih (r, c) (pen.1 + δ + wd font c / 1000 * size + g.charSpace, pen.2) d hall' k
        simp only [positions] at this
        have e1 : pen.1 + d + δ + wd font c / 1000 * size + g.charSpace =
          pen.1 + δ + wd font c / 1000 * size + g.charSpace + d := by ring
        rw [e1, this]

theorem gapCount_all (f : RunFont) (a first last : Int) (l : List (Nat × Nat)) (hall : ∀ p ∈ l, (f.map.val p.2).isSome) :
    gapCount f (some (a, first, last)) l = l.countP (isGap first last) := by
  simp only [gapCount]
  apply List.countP_congr
  intro p hp
  simp [hall p hp]

theorem roundAway_near (q : ℚ) : |(roundAway q : ℚ) - q| ≤ 1 / 2 := by
  unfold roundAway
  split
  · have h1 := Int.floor_le (-q + 1 / 2)
    have h2 := Int.lt_floor_add_one (-q + 1 / 2)
    rw [abs_le]; push_cast; constructor <;> linarith
  · have h1 := Int.floor_le (q + 1 / 2)
    have h2 := Int.lt_floor_add_one (q + 1 / 2)
    rw [abs_le]; constructor <;> linarith

end Verif.Content
