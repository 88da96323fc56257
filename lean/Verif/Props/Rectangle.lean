import Verif.Model.Rectangle
import Verif.Props.Balance
import Mathlib.Analysis.SpecialFunctions.Trigonometric.Basic
import Mathlib.Tactic.Linarith
import Mathlib.Tactic.FieldSimp
import Mathlib.Tactic.Positivity
/- C46: rectangles with round corners. -/
namespace Verif.Props
open Rectangle

/-- Cosine and sine of an angle in degrees. -/
noncomputable def cosd (d : ℝ) : ℝ := Real.cos (d * Real.pi / 180)
noncomputable def sind (d : ℝ) : ℝ := Real.sin (d * Real.pi / 180)

section
variable {K : Type*} [Field K] [LinearOrder K] [IsStrictOrderedRing K]

theorem degreeLoop_eq (n : Nat) : ∀ (fuel k : Nat), k + fuel = n + 2 → 1 ≤ k →
    degreeLoop (90 / ((n : K) + 1)) fuel ((k : K) * (90 / ((n : K) + 1))) =
      (List.range' k (n + 1 - k)).map fun (j : Nat) => (j : K) * (90 / ((n : K) + 1)) := by
  intro fuel
  have hn : (0 : K) < (n : K) + 1 := by positivity
  induction fuel with
  | zero => intro k h _; have : n + 1 - k = 0 := by omega
            rw [this]; rfl
  | succ fuel ih =>
    intro k h hk
    unfold degreeLoop
    have hlt : (k : K) * (90 / ((n : K) + 1)) < 90 ↔ k < n + 1 := by
      rw [← mul_div_assoc, div_lt_iff₀ hn, mul_comm, mul_lt_mul_iff_right₀ (by norm_num : (0 : K) < 90)]
      exact_mod_cast Iff.rfl
    by_cases hkn : k < n + 1
    · rw [if_pos (hlt.2 hkn)]
      have e1 : (k : K) * (90 / ((n : K) + 1)) + 90 / ((n : K) + 1) = ((k + 1 : Nat) : K) * (90 / ((n : K) + 1)) := by
        push_cast; ring
      rw [e1, ih (k + 1) (by omega) (by omega)]
      have e2 : n + 1 - k = (n + 1 - (k + 1)) + 1 := by omega
      rw [e2, List.range'_succ, List.map_cons]
    · rw [if_neg (fun h => hkn (hlt.1 h))]
      have : n + 1 - k = 0 := by omega
      rw [this]; rfl

/-- The angles are the multiples of 90/(n+1) strictly between 0 and 90 degrees. -/
theorem degrees_eq (n : Nat) : degrees (K := K) n = (List.range' 1 n).map fun (j : Nat) => (j : K) * (90 / ((n : K) + 1)) := by
  unfold degrees
  have h := degreeLoop_eq (K := K) n (n + 1) 1 (by omega) (le_refl 1)
  simpa using h

theorem degrees_between (n : Nat) (d : K) (h : d ∈ degrees n) : 0 < d ∧ d < 90 := by
  rw [degrees_eq] at h
  obtain ⟨j, hj, rfl⟩ := List.mem_map.1 h
  rw [List.mem_range'_1] at hj
  have hn : (0 : K) < (n : K) + 1 := by positivity
  have hj0 : (0 : K) < j := by exact_mod_cast (by omega : 0 < j)
  refine ⟨by positivity, ?_⟩
  rw [← mul_div_assoc, div_lt_iff₀ hn, mul_comm, mul_lt_mul_iff_right₀ (by norm_num : (0 : K) < 90)]
  exact_mod_cast (by omega : j < n + 1)

theorem degrees_increasing (n : Nat) : (degrees (K := K) n).Pairwise (· < ·) := by
  rw [degrees_eq]
  rw [List.pairwise_map]
  have hn : (0 : K) < 90 / ((n : K) + 1) := by positivity
  refine List.Pairwise.imp (fun {a b} (hab : a < b) => ?_) (List.pairwise_lt_range' 1 (by omega))
  exact mul_lt_mul_of_pos_right (by exact_mod_cast hab) hn

/-- **C46** Rectangle fails exactly for corners in the wrong order, and for round corners (radius and number of points
positive) whose radius is greater than the width or the height. -/
theorem rectangle_rejects (cos sin : K → K) (x0 y0 x1 y1 radius : K) (n : Int) :
    points cos sin x0 y0 x1 y1 radius n = none ↔
      x1 ≤ x0 ∨ y1 ≤ y0 ∨ 0 < n ∧ 0 < radius ∧ (x1 - x0 < radius ∨ y1 - y0 < radius) := by
  unfold points
  constructor
  · intro h
    split at h
    · next h0 => exact h0.imp_right .inl
    · split at h
      · simp at h
      · next h1 =>
        split at h
        · next h2 =>
          push Not at h1
          exact .inr (.inr ⟨h1.1, h1.2, h2⟩)
        · simp at h
  · intro h
    split
    · rfl
    next h0 =>
    push Not at h0
    rcases h with h | h | ⟨h1, h2, h3⟩
    · exact absurd h (not_le.2 h0.1)
    · exact absurd h (not_le.2 h0.2)
    · rw [if_neg (by push Not; exact ⟨h1, h2⟩), if_pos h3]

/-- **C46** For an accepted rectangle every point of the outline lies in the rectangle; without round corners the outline is
the rectangle's four corners, with them it has the requested number of points on each corner, between two points on the
edges.  (`cos`, `sin`: any functions with values between 0 and 1 between 0 and 90 degrees.) -/
theorem rectangle_inside (cos sin : K → K) (hc : ∀ d, 0 < d → d < 90 → 0 ≤ cos d ∧ cos d ≤ 1 ∧ 0 ≤ sin d ∧ sin d ≤ 1)
    (x0 y0 x1 y1 radius : K) (n : Int) (ps : List (K × K)) (h : points cos sin x0 y0 x1 y1 radius n = some ps) :
    (∀ p ∈ ps, x0 ≤ p.1 ∧ p.1 ≤ x1 ∧ y0 ≤ p.2 ∧ p.2 ≤ y1) ∧
    ((n ≤ 0 ∨ radius ≤ 0) → ps = [(x0, y0), (x1, y0), (x1, y1), (x0, y1)]) ∧
    (0 < n → 0 < radius → ps.length = 4 * (n.toNat + 2)) := by
  unfold points at h
  split at h
  · simp at h
  next h0 =>
  push Not at h0
  split at h
  · next h1 =>
    obtain rfl := Option.some.inj h
    refine ⟨?_, fun _ => rfl, fun a b => ?_⟩
    · intro p hp
      simp only [List.mem_cons, List.not_mem_nil, or_false] at hp
      rcases hp with rfl | rfl | rfl | rfl <;> simp [h0.1.le, h0.2.le]
    · exact absurd h1 (by push Not; exact ⟨a, b⟩)
  next h1 =>
  split at h
  · simp at h
  next h2 =>
  push Not at h1 h2
  obtain rfl := Option.some.inj h
  have hr := h1.2
  have hw : radius ≤ x1 - x0 := h2.1
  have hh : radius ≤ y1 - y0 := h2.2
  refine ⟨?_, fun hor => ?_, fun _ _ => ?_⟩
  · intro p hp
    have hb : ∀ d ∈ degrees (K := K) n.toNat, 0 ≤ radius * cos d ∧ radius * cos d ≤ radius ∧ 0 ≤ radius * sin d ∧ radius * sin d ≤ radius := by
      intro d hd
      obtain ⟨d0, d1⟩ := degrees_between _ d hd
      obtain ⟨c0, c1, s0, s1⟩ := hc d d0 d1
      exact ⟨by positivity, by nlinarith, by positivity, by nlinarith⟩
    have ends : ∀ (l : List K) (f : K → K × K) (a b : K × K), p ∈ a :: l.map f ++ [b] → p = a ∨ (∃ d ∈ l, f d = p) ∨ p = b := by
      intro l f a b h
      simp only [List.cons_append, List.mem_cons, List.mem_append, List.mem_map, List.not_mem_nil, or_false] at h
      exact h
    rcases List.mem_append.1 hp with hp | hp
    · rcases List.mem_append.1 hp with hp | hp
      · rcases List.mem_append.1 hp with hp | hp
        · rcases ends _ _ _ _ hp with rfl | ⟨d, hd, rfl⟩ | rfl
          · refine ⟨?_, ?_, ?_, ?_⟩ <;> dsimp only <;> linarith
          · obtain ⟨b1, b2, b3, b4⟩ := hb d hd
            refine ⟨?_, ?_, ?_, ?_⟩ <;> dsimp only <;> linarith
          · refine ⟨?_, ?_, ?_, ?_⟩ <;> dsimp only <;> linarith
        · rcases ends _ _ _ _ hp with rfl | ⟨d, hd, rfl⟩ | rfl
          · refine ⟨?_, ?_, ?_, ?_⟩ <;> dsimp only <;> linarith
          · obtain ⟨b1, b2, b3, b4⟩ := hb d (List.mem_reverse.1 hd)
            refine ⟨?_, ?_, ?_, ?_⟩ <;> dsimp only <;> linarith
          · refine ⟨?_, ?_, ?_, ?_⟩ <;> dsimp only <;> linarith
      · rcases ends _ _ _ _ hp with rfl | ⟨d, hd, rfl⟩ | rfl
        · refine ⟨?_, ?_, ?_, ?_⟩ <;> dsimp only <;> linarith
        · obtain ⟨b1, b2, b3, b4⟩ := hb d hd
          refine ⟨?_, ?_, ?_, ?_⟩ <;> dsimp only <;> linarith
        · refine ⟨?_, ?_, ?_, ?_⟩ <;> dsimp only <;> linarith
    · rcases ends _ _ _ _ hp with rfl | ⟨d, hd, rfl⟩ | rfl
      · refine ⟨?_, ?_, ?_, ?_⟩ <;> dsimp only <;> linarith
      · obtain ⟨b1, b2, b3, b4⟩ := hb d (List.mem_reverse.1 hd)
        refine ⟨?_, ?_, ?_, ?_⟩ <;> dsimp only <;> linarith
      · refine ⟨?_, ?_, ?_, ?_⟩ <;> dsimp only <;> linarith
  · exact absurd hor (by push Not; exact h1)
  · have hl : (degrees (K := K) n.toNat).length = n.toNat := by rw [degrees_eq]; simp
    simp [corner1, corner2, corner3, corner4, hl]; ring
end

/-! ### With the real cosine and sine -/

private theorem rad {d : ℝ} (h0 : 0 ≤ d) (h1 : d ≤ 90) : 0 ≤ d * Real.pi / 180 ∧ d * Real.pi / 180 ≤ Real.pi / 2 := by
  have := Real.pi_pos
  constructor
  · positivity
  · nlinarith

theorem trig_unit (d : ℝ) (h0 : 0 < d) (h1 : d < 90) : 0 ≤ cosd d ∧ cosd d ≤ 1 ∧ 0 ≤ sind d ∧ sind d ≤ 1 := by
  obtain ⟨a, b⟩ := rad h0.le h1.le
  have := Real.pi_pos
  exact ⟨Real.cos_nonneg_of_mem_Icc ⟨by linarith, b⟩, Real.cos_le_one _, Real.sin_nonneg_of_mem_Icc ⟨a, by linarith⟩, Real.sin_le_one _⟩

theorem trig_mono {a b : ℝ} (h0 : 0 < a) (hab : a < b) (h1 : b < 90) : cosd b ≤ cosd a ∧ sind a ≤ sind b := by
  obtain ⟨a0, a1⟩ := rad h0.le (hab.trans h1).le
  obtain ⟨b0, b1⟩ := rad (h0.trans hab).le h1.le
  have := Real.pi_pos
  have hlt : a * Real.pi / 180 ≤ b * Real.pi / 180 := by nlinarith
  exact ⟨Real.cos_le_cos_of_nonneg_of_le_pi a0 (by linarith) hlt, Real.sin_le_sin_of_le_of_le_pi_div_two (by linarith) b1 hlt⟩

/-- **C46** With real cosine and sine: every point of the outline of an accepted rectangle with round corners lies in the
rectangle, and lies on an edge's end or on the circle of the given radius about one of the four corner centres. -/
theorem rectangle_round (x0 y0 x1 y1 radius : ℝ) (n : Int) (hn : 0 < n) (hr : 0 < radius) (ps : List (ℝ × ℝ))
    (h : points cosd sind x0 y0 x1 y1 radius n = some ps) : ∀ p ∈ ps,
      (x0 ≤ p.1 ∧ p.1 ≤ x1 ∧ y0 ≤ p.2 ∧ p.2 ≤ y1) ∧
      ∃ c ∈ [(x0 + radius, y0 + radius), (x1 - radius, y0 + radius), (x1 - radius, y1 - radius), (x0 + radius, y1 - radius)],
        (p.1 - c.1) ^ 2 + (p.2 - c.2) ^ 2 = radius ^ 2 := by
  intro p hp
  refine ⟨(rectangle_inside cosd sind trig_unit x0 y0 x1 y1 radius n ps h).1 p hp, ?_⟩
  unfold points at h
  split at h
  · simp at h
  split at h
  · next h1 => exact absurd h1 (by push Not; exact ⟨hn, hr⟩)
  split at h
  · simp at h
  obtain rfl := Option.some.inj h
  have pyth : ∀ d, (radius * cosd d) ^ 2 + (radius * sind d) ^ 2 = radius ^ 2 := by
    intro d
    have := Real.sin_sq_add_cos_sq (d * Real.pi / 180)
    unfold cosd sind; nlinarith
  have ends : ∀ (l : List ℝ) (f : ℝ → ℝ × ℝ) (a b : ℝ × ℝ), p ∈ a :: l.map f ++ [b] → p = a ∨ (∃ d ∈ l, f d = p) ∨ p = b := by
    intro l f a b h
    simp only [List.cons_append, List.mem_cons, List.mem_append, List.mem_map, List.not_mem_nil, or_false] at h
    exact h
  rcases List.mem_append.1 hp with hp | hp
  · rcases List.mem_append.1 hp with hp | hp
    · rcases List.mem_append.1 hp with hp | hp
      · refine ⟨_, List.mem_cons_self, ?_⟩
        rcases ends _ _ _ _ hp with rfl | ⟨d, hd, rfl⟩ | rfl
        · ring
        · rw [← pyth d]; ring
        · ring
      · refine ⟨_, List.mem_cons_of_mem _ List.mem_cons_self, ?_⟩
        rcases ends _ _ _ _ hp with rfl | ⟨d, hd, rfl⟩ | rfl
        · ring
        · rw [← pyth d]; ring
        · ring
    · refine ⟨_, List.mem_cons_of_mem _ (List.mem_cons_of_mem _ List.mem_cons_self), ?_⟩
      rcases ends _ _ _ _ hp with rfl | ⟨d, hd, rfl⟩ | rfl
      · ring
      · rw [← pyth d]; ring
      · ring
  · refine ⟨_, List.mem_cons_of_mem _ (List.mem_cons_of_mem _ (List.mem_cons_of_mem _ List.mem_cons_self)), ?_⟩
    rcases ends _ _ _ _ hp with rfl | ⟨d, hd, rfl⟩ | rfl
    · ring
    · rw [← pyth d]; ring
    · ring

/-- Going round: an outline of four parts, up along the left side, right along the top, down along the right side and left along
the bottom, none of them ever turning back (y grows downwards). -/
def GoesRound (ps : List (ℝ × ℝ)) : Prop :=
  ∃ a b c d, ps = a ++ b ++ c ++ d ∧ (a ++ b).Pairwise (fun p q => p.1 ≤ q.1) ∧ (b ++ c).Pairwise (fun p q => p.2 ≤ q.2) ∧
    (c ++ d).Pairwise (fun p q => q.1 ≤ p.1) ∧ (d ++ a).Pairwise (fun p q => q.2 ≤ p.2)

private theorem pairwise_ends {l : List ℝ} {f : ℝ → ℝ × ℝ} {a b : ℝ × ℝ} {R : ℝ × ℝ → ℝ × ℝ → Prop}
    (hl : (l.map f).Pairwise R) (ha : ∀ d ∈ l, R a (f d)) (hb : ∀ d ∈ l, R (f d) b) (hab : R a b) : (a :: l.map f ++ [b]).Pairwise R := by
  rw [List.cons_append, List.pairwise_cons]
  refine ⟨?_, ?_⟩
  · intro q hq
    rcases List.mem_append.1 hq with hq | hq
    · obtain ⟨d, hd, rfl⟩ := List.mem_map.1 hq; exact ha d hd
    · obtain rfl := List.mem_singleton.1 hq; exact hab
  · rw [List.pairwise_append]
    refine ⟨hl, List.pairwise_singleton _ _, ?_⟩
    intro p hp q hq
    obtain ⟨d, hd, rfl⟩ := List.mem_map.1 hp
    obtain rfl := List.mem_singleton.1 hq
    exact hb d hd

/-- **C46** If the radius is at most half of the width and of the height, the outline goes once round the rectangle without
turning back, so it does not cross itself. -/
theorem rectangle_goes_round (x0 y0 x1 y1 radius : ℝ) (n : Int) (hw : 2 * radius ≤ x1 - x0) (hh : 2 * radius ≤ y1 - y0)
    (ps : List (ℝ × ℝ)) (h : points cosd sind x0 y0 x1 y1 radius n = some ps) : GoesRound ps := by
  unfold points at h
  split at h
  · simp at h
  next h0 =>
  push Not at h0
  split at h
  · obtain rfl := Option.some.inj h
    refine ⟨[(x0, y0)], [(x1, y0)], [(x1, y1)], [(x0, y1)], rfl, ?_, ?_, ?_, ?_⟩ <;> simp [h0.1.le, h0.2.le]
  next h1 =>
  push Not at h1
  split at h
  · simp at h
  obtain rfl := Option.some.inj h
  have hr := h1.2
  set ds : List ℝ := degrees n.toNat with hds
  have hb : ∀ d ∈ ds, 0 ≤ radius * cosd d ∧ radius * cosd d ≤ radius ∧ 0 ≤ radius * sind d ∧ radius * sind d ≤ radius := by
    intro d hd
    obtain ⟨d0, d1⟩ := degrees_between _ d hd
    obtain ⟨c0, c1, s0, s1⟩ := trig_unit d d0 d1
    exact ⟨by positivity, by nlinarith, by positivity, by nlinarith⟩
  have hmono : ds.Pairwise fun a b => radius * cosd b ≤ radius * cosd a ∧ radius * sind a ≤ radius * sind b := by
    have h1 := degrees_increasing (K := ℝ) n.toNat
    rw [← hds] at h1
    have h2 : ds.Pairwise fun a b => (a ∈ ds ∧ b ∈ ds) ∧ a < b := by
      rw [List.pairwise_iff_getElem] at h1 ⊢
      exact fun i j hi hj hij => ⟨⟨List.getElem_mem hi, List.getElem_mem hj⟩, h1 i j hi hj hij⟩
    refine h2.imp ?_
    intro a b ⟨⟨ha, hb⟩, hab⟩
    obtain ⟨m1, m2⟩ := trig_mono (degrees_between _ a ha).1 hab (degrees_between _ b hb).2
    exact ⟨mul_le_mul_of_nonneg_left m1 hr.le, mul_le_mul_of_nonneg_left m2 hr.le⟩
  have hrev : ds.reverse.Pairwise fun a b => radius * cosd a ≤ radius * cosd b ∧ radius * sind b ≤ radius * sind a := by
    rw [List.pairwise_reverse]; exact hmono
  have hb' : ∀ d ∈ ds.reverse, 0 ≤ radius * cosd d ∧ radius * cosd d ≤ radius ∧ 0 ≤ radius * sind d ∧ radius * sind d ≤ radius :=
    fun d hd => hb d (List.mem_reverse.1 hd)
  -- each corner: monotone both ways
  have m1 : (corner1 cosd sind x0 y0 radius ds).Pairwise fun p q => p.1 ≤ q.1 ∧ q.2 ≤ p.2 := by
    refine pairwise_ends ?_ (fun d hd => ?_) (fun d hd => ?_) ?_
    · rw [List.pairwise_map]; exact hmono.imp fun h => ⟨by dsimp only; linarith [h.1], by dsimp only; linarith [h.2]⟩
    · obtain ⟨b1, b2, b3, b4⟩ := hb d hd; constructor <;> dsimp only <;> linarith
    · obtain ⟨b1, b2, b3, b4⟩ := hb d hd; constructor <;> dsimp only <;> linarith
    · constructor <;> dsimp only <;> linarith
  have m2 : (corner2 cosd sind y0 x1 radius ds).Pairwise fun p q => p.1 ≤ q.1 ∧ p.2 ≤ q.2 := by
    refine pairwise_ends ?_ (fun d hd => ?_) (fun d hd => ?_) ?_
    · rw [List.pairwise_map]; exact hrev.imp fun h => ⟨by dsimp only; linarith [h.1], by dsimp only; linarith [h.2]⟩
    · obtain ⟨b1, b2, b3, b4⟩ := hb' d hd; constructor <;> dsimp only <;> linarith
    · obtain ⟨b1, b2, b3, b4⟩ := hb' d hd; constructor <;> dsimp only <;> linarith
    · constructor <;> dsimp only <;> linarith
  have m3 : (corner3 cosd sind x1 y1 radius ds).Pairwise fun p q => q.1 ≤ p.1 ∧ p.2 ≤ q.2 := by
    refine pairwise_ends ?_ (fun d hd => ?_) (fun d hd => ?_) ?_
    · rw [List.pairwise_map]; exact hmono.imp fun h => ⟨by dsimp only; linarith [h.1], by dsimp only; linarith [h.2]⟩
    · obtain ⟨b1, b2, b3, b4⟩ := hb d hd; constructor <;> dsimp only <;> linarith
    · obtain ⟨b1, b2, b3, b4⟩ := hb d hd; constructor <;> dsimp only <;> linarith
    · constructor <;> dsimp only <;> linarith
  have m4 : (corner4 cosd sind x0 y1 radius ds).Pairwise fun p q => q.1 ≤ p.1 ∧ q.2 ≤ p.2 := by
    refine pairwise_ends ?_ (fun d hd => ?_) (fun d hd => ?_) ?_
    · rw [List.pairwise_map]; exact hrev.imp fun h => ⟨by dsimp only; linarith [h.1], by dsimp only; linarith [h.2]⟩
    · obtain ⟨b1, b2, b3, b4⟩ := hb' d hd; constructor <;> dsimp only <;> linarith
    · obtain ⟨b1, b2, b3, b4⟩ := hb' d hd; constructor <;> dsimp only <;> linarith
    · constructor <;> dsimp only <;> linarith
  -- where the corners are
  have ends : ∀ (l : List ℝ) (f : ℝ → ℝ × ℝ) (a b p : ℝ × ℝ), p ∈ a :: l.map f ++ [b] → p = a ∨ (∃ d ∈ l, f d = p) ∨ p = b := by
    intro l f a b p h
    simp only [List.cons_append, List.mem_cons, List.mem_append, List.mem_map, List.not_mem_nil, or_false] at h
    exact h
  have b1 : ∀ p ∈ corner1 cosd sind x0 y0 radius ds, p.1 ≤ x0 + radius ∧ p.2 ≤ y0 + radius := by
    intro p hp
    rcases ends _ _ _ _ p hp with rfl | ⟨d, hd, rfl⟩ | rfl
    · constructor <;> dsimp only <;> linarith
    · obtain ⟨b1, b2, b3, b4⟩ := hb d hd; constructor <;> dsimp only <;> linarith
    · constructor <;> dsimp only <;> linarith
  have b2 : ∀ p ∈ corner2 cosd sind y0 x1 radius ds, x1 - radius ≤ p.1 ∧ p.2 ≤ y0 + radius := by
    intro p hp
    rcases ends _ _ _ _ p hp with rfl | ⟨d, hd, rfl⟩ | rfl
    · constructor <;> dsimp only <;> linarith
    · obtain ⟨b1, b2, b3, b4⟩ := hb' d hd; constructor <;> dsimp only <;> linarith
    · constructor <;> dsimp only <;> linarith
  have b3 : ∀ p ∈ corner3 cosd sind x1 y1 radius ds, x1 - radius ≤ p.1 ∧ y1 - radius ≤ p.2 := by
    intro p hp
    rcases ends _ _ _ _ p hp with rfl | ⟨d, hd, rfl⟩ | rfl
    · constructor <;> dsimp only <;> linarith
    · obtain ⟨b1, b2, b3, b4⟩ := hb d hd; constructor <;> dsimp only <;> linarith
    · constructor <;> dsimp only <;> linarith
  have b4 : ∀ p ∈ corner4 cosd sind x0 y1 radius ds, p.1 ≤ x0 + radius ∧ y1 - radius ≤ p.2 := by
    intro p hp
    rcases ends _ _ _ _ p hp with rfl | ⟨d, hd, rfl⟩ | rfl
    · constructor <;> dsimp only <;> linarith
    · obtain ⟨b1, b2, b3, b4⟩ := hb' d hd; constructor <;> dsimp only <;> linarith
    · constructor <;> dsimp only <;> linarith
  refine ⟨_, _, _, _, rfl, ?_, ?_, ?_, ?_⟩ <;> rw [List.pairwise_append]
  · exact ⟨m1.imp And.left, m2.imp And.left, fun p hp q hq => by linarith [(b1 p hp).1, (b2 q hq).1]⟩
  · exact ⟨m2.imp And.right, m3.imp And.right, fun p hp q hq => by linarith [(b2 p hp).2, (b3 q hq).2]⟩
  · exact ⟨m3.imp And.left, m4.imp And.left, fun p hp q hq => by linarith [(b3 p hp).1, (b4 q hq).1]⟩
  · exact ⟨m4.imp And.right, m1.imp And.right, fun p hp q hq => by linarith [(b4 p hp).2, (b1 q hq).2]⟩

/-- **C46** (counterexample)  Radii greater than half the width are accepted as well, although the corners then overlap: for
every such rectangle the top edge runs backwards, from right to left. -/
theorem rectangle_overlap_fails (x0 y0 x1 y1 radius : ℝ) (n : Int) (hn : 0 < n) (h0 : y0 < y1) (hr : radius ≤ x1 - x0)
    (hh : radius ≤ y1 - y0) (hpos : 0 < radius) (hover : x1 - x0 < 2 * radius) :
    ∃ ps pre post, points cosd sind x0 y0 x1 y1 radius n = some ps ∧
      ps = pre ++ [(x0 + radius, y0), (x1 - radius, y0)] ++ post ∧ x1 - radius < x0 + radius := by
  have hsome : points cosd sind x0 y0 x1 y1 radius n ≠ none := by
    rw [Ne, rectangle_rejects]
    push Not
    exact ⟨by linarith, h0, fun _ _ => ⟨hr, hh⟩⟩
  obtain ⟨ps, hps⟩ := Option.ne_none_iff_exists'.1 hsome
  refine ⟨ps, (x0, y0 + radius) :: (degrees n.toNat).map (fun v => (x0 + radius - radius * cosd v, y0 + radius - radius * sind v)),
    (degrees n.toNat).reverse.map (fun v => (x1 - radius + radius * cosd v, y0 + radius - radius * sind v)) ++ [(x1, y0 + radius)] ++
      corner3 cosd sind x1 y1 radius (degrees n.toNat) ++ corner4 cosd sind x0 y1 radius (degrees n.toNat), hps, ?_, by linarith⟩
  unfold points at hps
  rw [if_neg (by push Not; exact ⟨by linarith, h0⟩), if_neg (by push Not; exact ⟨hn, hpos⟩),
    if_neg (by push Not; exact ⟨hr, hh⟩)] at hps
  obtain rfl := Option.some.inj hps
  simp [corner1, corner2]

open Content Paint in
/-- **C46** An accepted rectangle is drawn on the current page as one shape with the requested painting style: the closed outline
through the points (a filled outline is closed by the painting itself, ISO 32000-1 §8.5.3.1), in the page's coordinates and
with the current transparency; everything else stays as it was.  A rejected one draws nothing. -/
theorem rectangle_drawn (e : Env) (wd : Widths) (s : St) (x0 y0 x1 y1 : ℚ) (st : PaintKind) (radius : ℚ) (n : Int) :
    (∀ c, Rectangle.call e x0 y0 x1 y1 st radius n = some c → ∃ ps item,
      points e.cos e.sin x0 y0 x1 y1 radius n = some ps ∧
      step e s c = some { s with pages := s.pages.modify s.page (· ++ [item]) } ∧
      ∀ r : Reader, r.level = .page → ∃ p0 rest, ps = p0 :: rest ∧
        run wd r (ops e item) = some { r with marks := r.marks ++ [.shape st
          (.move (Units.toPoints e.cfg p0.1, s.cur.pageHeight - Units.toPoints e.cfg p0.2) ::
            rest.map (fun p => .line (Units.toPoints e.cfg p.1, s.cur.pageHeight - Units.toPoints e.cfg p.2)) ++
            (if st = .fill then [] else [.close])) { r.g with ext := r.g.ext ++ s.cur.ext.toList }] }) ∧
    (Rectangle.call e x0 y0 x1 y1 st radius n = none ↔ points e.cos e.sin x0 y0 x1 y1 radius n = none) := by
  constructor
  · intro c hc
    obtain ⟨ps, hps, rfl⟩ := Option.map_eq_some_iff.1 hc
    refine ⟨ps, _, hps, rfl, fun r hr => ?_⟩
    have hne : ps ≠ [] := by
      rintro rfl
      unfold points at hps
      split at hps <;> [skip; split at hps <;> [skip; split at hps]] <;> simp [corner1] at hps
    cases ps with
    | nil => exact absurd rfl hne
    | cons p0 rest =>
      refine ⟨p0, rest, rfl, ?_⟩
      have := runs_polygon wd e s.cur.pageHeight ((p0 :: rest).map fun p => (Units.toPoints e.cfg p.1, Units.toPoints e.cfg p.2))
        st s.cur.ext.toList (by simp) r hr
      rw [this]
      cases st <;> simp [segs]
  · simp [Rectangle.call]

/-- A rectangle of 100 by 50 with corners of radius 10 and 3 points each; and one with overlapping corners. -/
example : ∃ ps, points cosd sind (10 : ℝ) 20 110 70 10 3 = some ps ∧ ps.length = 20 ∧ GoesRound ps := by
  have h : points cosd sind (10 : ℝ) 20 110 70 10 3 ≠ none := by
    rw [Ne, rectangle_rejects]; norm_num
  obtain ⟨ps, hps⟩ := Option.ne_none_iff_exists'.1 h
  exact ⟨ps, hps, (rectangle_inside cosd sind trig_unit _ _ _ _ _ _ ps hps).2.2 (by norm_num) (by norm_num),
    rectangle_goes_round _ _ _ _ _ _ (by norm_num) (by norm_num) ps hps⟩

example : ∃ ps pre post, points cosd sind (0 : ℝ) 0 10 20 8 3 = some ps ∧ ps = pre ++ [(0 + 8, 0), (10 - 8, 0)] ++ post ∧
    (10 : ℝ) - 8 < 0 + 8 :=
  rectangle_overlap_fails 0 0 10 20 8 3 (by norm_num) (by norm_num) (by norm_num) (by norm_num) (by norm_num) (by norm_num)

end Verif.Props
