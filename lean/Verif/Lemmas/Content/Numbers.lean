import Verif.Model.ContentBytes
import Verif.Spec.ContentReader
import Verif.Lemmas.Bytes
import Verif.Lemmas.TextRun
import Mathlib.Tactic.Linarith
import Mathlib.Tactic.NormNum
import Mathlib.Tactic.FieldSimp
import Mathlib.Tactic.Positivity
import Mathlib.Tactic.Ring
import Mathlib.Algebra.Order.Field.Basic
/- The decimal numbers written in content streams and what a reader makes of them. -/
namespace Verif.Content
open ContentReader TextRun

theorem roundHalfEven_near {x : ℚ} (hx : 0 ≤ x) : |(roundHalfEven x : ℚ) - x| ≤ 1 / 2 := by
  have h1 := Int.floor_le x
  have h2 := Int.lt_floor_add_one x
  have h0 : (0 : Int) ≤ ⌊x⌋ := Int.floor_nonneg.2 hx
  have hc : ((⌊x⌋.toNat : Nat) : ℚ) = (⌊x⌋ : ℚ) := by
    have : ((⌊x⌋.toNat : Nat) : Int) = ⌊x⌋ := Int.toNat_of_nonneg h0
    exact_mod_cast congrArg (fun z : Int => (z : ℚ)) this
  unfold roundHalfEven
  dsimp only
  rw [abs_le]
  split_ifs <;> push_cast <;> rw [hc] at * <;> constructor <;> linarith

theorem roundAway_near (x : ℚ) : |(roundAway x : ℚ) - x| ≤ 1 / 2 := by
  unfold roundAway
  rw [abs_le]
  split_ifs
  · have h1 := Int.floor_le (-x + 1 / 2)
    have h2 := Int.lt_floor_add_one (-x + 1 / 2)
    push_cast
    constructor <;> linarith
  · have h1 := Int.floor_le (x + 1 / 2)
    have h2 := Int.lt_floor_add_one (x + 1 / 2)
    constructor <;> linarith

/-- A word that is read as the number `v`. -/
def IsNum (w : Bytes) (v : ℚ) : Prop := w ≠ [] ∧ (∀ b ∈ w, isRegular b = true) ∧ number w = some v

theorem digit_regular {b : UInt8} (h : isDigit b = true) : isRegular b = true := by
  have key : ∀ n : Fin 256, isDigit (UInt8.ofNat n) = true → isRegular (UInt8.ofNat n) = true := by decide +kernel
  have := key ⟨b.toNat, b.toNat_lt⟩
  simpa using this (by simpa using h)

theorem padL_length {k : Nat} {s : Bytes} (h : s.length ≤ k) : (padL k s).length = k := by
  simp [padL]; omega

theorem padL_digits {k : Nat} {s : Bytes} (h : ∀ b ∈ s, isDigit b = true) : ∀ b ∈ padL k s, isDigit b = true := by
  intro b hb
  simp only [padL, List.mem_append, List.mem_replicate] at hb
  rcases hb with ⟨_, rfl⟩ | hb
  · decide
  · exact h b hb

theorem decVal_padL (k : Nat) (s : Bytes) : decVal (padL k s) = decVal s := decVal_zeros _ _

theorem magnitude_int (n : Nat) : magnitude (dec n) = some (n : ℚ) := by
  have h1 : (dec n).takeWhile isDigit = dec n := by
    simpa using List.takeWhile_append_of_pos (l₂ := []) (dec_all_digit n)
  have h2 : (dec n).dropWhile isDigit = [] := by
    simpa using List.dropWhile_append_of_pos (l₂ := []) (dec_all_digit n)
  simp [magnitude, h1, h2, dec_ne_nil, decVal_dec]

theorem magnitude_frac (n : Nat) (f : Bytes) (hf : ∀ b ∈ f, isDigit b = true) :
    magnitude (dec n ++ 46 :: f) = some ((n : ℚ) + decVal f / 10 ^ f.length) := by
  have h1 : (dec n ++ 46 :: f).takeWhile isDigit = dec n := takeWhile_stop (dec_all_digit n) (by decide)
  have h2 : (dec n ++ 46 :: f).dropWhile isDigit = 46 :: f := dropWhile_stop (dec_all_digit n) (by decide)
  have h3 : f.all isDigit = true := List.all_eq_true.2 hf
  simp only [magnitude, h1, h2, h3, decVal_dec]
  rw [if_pos ⟨trivial, Or.inl (dec_ne_nil n)⟩]

/-- With a sign. -/
theorem isNum_signed {neg : Prop} [Decidable neg] {b : UInt8} {r : Bytes} {v : ℚ} (hb : isDigit b = true)
    (hr : ∀ x ∈ b :: r, isRegular x = true) (hm : magnitude (b :: r) = some v) :
    IsNum ((if neg then [45] else []) ++ b :: r) (if neg then -v else v) := by
  by_cases hn : neg
  · simp only [hn, if_true]
    refine ⟨by simp, ?_, ?_⟩
    · intro x hx
      simp only [List.singleton_append, List.mem_cons] at hx
      rcases hx with rfl | hx
      · decide
      · exact hr x (by simpa using hx)
    · simp [number, hm]
  · simp only [hn, if_false]
    refine ⟨by simp, by simpa using hr, ?_⟩
    have h45 : b ≠ 45 := by rintro rfl; exact absurd hb (by decide)
    have h43 : b ≠ 43 := by rintro rfl; exact absurd hb (by decide)
    rw [List.nil_append]
    unfold number
    split
    · rename_i heq; injection heq with h _; exact absurd h h45
    · rename_i heq; injection heq with h _; exact absurd h h43
    · exact hm

theorem isNum_fixed' {k : Nat} (hk : 0 < k) (q : ℚ) :
    IsNum (fixed k q) (if q < 0 then -((roundHalfEven (|q| * 10 ^ k) : ℚ) / 10 ^ k)
      else (roundHalfEven (|q| * 10 ^ k) : ℚ) / 10 ^ k) := by
  set n := roundHalfEven (|q| * 10 ^ k) with hn
  have hp : (0 : ℚ) < 10 ^ k := by positivity
  have hlen : (padL k (dec (n % 10 ^ k))).length = k :=
    padL_length ((dec_length_le_iff hk).2 (Nat.mod_lt _ (by positivity)))
  have hm := magnitude_frac (n / 10 ^ k) (padL k (dec (n % 10 ^ k))) (padL_digits (dec_all_digit _))
  rw [hlen, decVal_padL, decVal_dec] at hm
  have hval : ((n / 10 ^ k : Nat) : ℚ) + ((n % 10 ^ k : Nat) : ℚ) / 10 ^ k = (n : ℚ) / 10 ^ k := by
    have : (n : ℚ) = 10 ^ k * ((n / 10 ^ k : Nat) : ℚ) + ((n % 10 ^ k : Nat) : ℚ) := by
      exact_mod_cast (Nat.div_add_mod n (10 ^ k)).symm
    rw [this]
    field_simp
  rw [hval] at hm
  have hne := dec_ne_nil (n / 10 ^ k)
  have hdig := dec_all_digit (n / 10 ^ k)
  have hreg : ∀ x ∈ dec (n / 10 ^ k) ++ 46 :: padL k (dec (n % 10 ^ k)), isRegular x = true := by
    intro x hx
    simp only [List.mem_append, List.mem_cons] at hx
    rcases hx with hx | rfl | hx
    · exact digit_regular (hdig x hx)
    · decide
    · exact digit_regular (padL_digits (dec_all_digit _) x hx)
  have hfx : fixed k q = (if q < 0 then [45] else []) ++ (dec (n / 10 ^ k) ++ 46 :: padL k (dec (n % 10 ^ k))) := by
    simp [fixed, hn]
  rw [hfx]
  cases hd : dec (n / 10 ^ k) with
  | nil => exact absurd hd hne
  | cons b r =>
    rw [hd] at hm hreg hdig
    exact isNum_signed (hdig b (by simp)) hreg hm

theorem isNum_fixed {k : Nat} (hk : 0 < k) (q : ℚ) :
    ∃ v, IsNum (fixed k q) v ∧ Near (1 / (2 * 10 ^ k)) v q := by
  refine ⟨_, isNum_fixed' hk q, ?_⟩
  have hp : (0 : ℚ) < 10 ^ k := by positivity
  have hr := roundHalfEven_near (x := |q| * 10 ^ k) (by positivity)
  set n := roundHalfEven (|q| * 10 ^ k) with hn
  have key : |(n : ℚ) / 10 ^ k - (|q|)| ≤ 1 / (2 * 10 ^ k) := by
    have : (n : ℚ) / 10 ^ k - (|q|) = ((n : ℚ) - (|q|) * 10 ^ k) / 10 ^ k := by field_simp
    rw [this, abs_div, abs_of_pos hp, div_le_iff₀ hp]
    calc _ ≤ _ := hr
      _ = _ := by field_simp
  unfold Near
  split_ifs with h
  · rw [abs_of_neg h] at key
    have : -((n : ℚ) / 10 ^ k) - q = -((n : ℚ) / 10 ^ k - -q) := by ring
    rw [this, abs_neg]; exact key
  · rw [abs_of_nonneg (not_lt.1 h)] at key; exact key

theorem isNum_f2 (q : ℚ) : ∃ v, IsNum (fixed 2 q) v ∧ Near (1 / 200) v q := by
  have := isNum_fixed (k := 2) (by decide) q
  norm_num at this; exact this

theorem isNum_f3 (q : ℚ) : ∃ v, IsNum (fixed 3 q) v ∧ Near (1 / 2000) v q := by
  have := isNum_fixed (k := 3) (by decide) q
  norm_num at this; exact this

theorem isNum_f4 (q : ℚ) : ∃ v, IsNum (fixed 4 q) v ∧ Near (1 / 200) v q := by
  obtain ⟨v, h1, h2⟩ := isNum_fixed (k := 4) (by decide) q
  refine ⟨v, h1, le_trans h2 (by norm_num)⟩

theorem isNum_f5 (q : ℚ) : ∃ v, IsNum (fixed 5 q) v ∧ Near (1 / 200000) v q := by
  have := isNum_fixed (k := 5) (by decide) q
  norm_num at this; exact this

/-- A whole number of hundredths is written exactly. -/
theorem isNum_percent (c : Nat) : IsNum (fixed 2 ((c : ℚ) / 100)) ((c : ℚ) / 100) := by
  have h := isNum_fixed' (k := 2) (by decide) ((c : ℚ) / 100)
  have hr : roundHalfEven (|(c : ℚ) / 100| * 10 ^ 2) = c := by
    have : |(c : ℚ) / 100| * 10 ^ 2 = c := by
      rw [abs_of_nonneg (by positivity)]; ring
    rw [this]
    unfold roundHalfEven
    simp
  rw [hr, if_neg (not_lt.2 (by positivity))] at h
  norm_num at h ⊢
  exact h

/-- Trailing zeros do not count after the point. -/
theorem decVal_strip (l : Bytes) :
    (decVal ((l.reverse.dropWhile (· == 48)).reverse) : ℚ) / 10 ^ ((l.reverse.dropWhile (· == 48)).reverse).length =
      (decVal l : ℚ) / 10 ^ l.length := by
  generalize hr : l.reverse = r
  have : l = r.reverse := by rw [← hr]; simp
  subst this
  clear hr
  induction r with
  | nil => simp
  | cons b r ih =>
    by_cases hb : b = 48
    · subst hb
      rw [List.dropWhile_cons_of_pos (by decide), ih]
      simp only [List.reverse_cons, List.length_append, List.length_singleton, decVal, List.foldl_append, List.foldl_cons,
        List.foldl_nil]
      rw [pow_succ]
      push_cast
      rw [add_zero, mul_comm (10 : ℚ), mul_div_mul_right _ _ (by norm_num)]
    · rw [List.dropWhile_cons_of_neg (by simpa using hb)]

theorem isNum_trimmed (q : ℚ) : ∃ v, IsNum (trimmed q) v ∧ Near (1 / 2000) v q := by
  set n := (roundAway (1000 * q)).natAbs with hn
  have hv : (if q < 0 then -((n : ℚ) / 1000) else (n : ℚ) / 1000) = (roundAway (1000 * q) : ℚ) / 1000 := by
    split_ifs with h
    · have hle : roundAway (1000 * q) ≤ 0 := by
        unfold roundAway
        rw [if_pos (by linarith)]
        have : (0 : Int) ≤ ⌊-(1000 * q) + 1 / 2⌋ := Int.floor_nonneg.2 (by linarith)
        omega
      have : ((n : Nat) : Int) = -roundAway (1000 * q) := by rw [hn]; omega
      have : (n : ℚ) = -(roundAway (1000 * q) : ℚ) := by exact_mod_cast congrArg (fun z : Int => (z : ℚ)) this
      rw [this]; ring
    · have hle : 0 ≤ roundAway (1000 * q) := by
        unfold roundAway
        rw [if_neg (by linarith)]
        exact Int.floor_nonneg.2 (by linarith)
      have : ((n : Nat) : Int) = roundAway (1000 * q) := by rw [hn]; omega
      have : (n : ℚ) = (roundAway (1000 * q) : ℚ) := by exact_mod_cast congrArg (fun z : Int => (z : ℚ)) this
      rw [this]
  refine ⟨if q < 0 then -((n : ℚ) / 1000) else (n : ℚ) / 1000, ?_, ?_⟩
  · have hsum : ((n / 1000 : Nat) : ℚ) + ((n % 1000 : Nat) : ℚ) / 1000 = (n : ℚ) / 1000 := by
      have : (n : ℚ) = 1000 * ((n / 1000 : Nat) : ℚ) + ((n % 1000 : Nat) : ℚ) := by
        exact_mod_cast (Nat.div_add_mod n 1000).symm
      rw [this]
      field_simp
    have key : ∀ tail : Bytes, (∀ x ∈ tail, isRegular x = true) →
        magnitude (dec (n / 1000) ++ tail) = some ((n : ℚ) / 1000) →
        IsNum ((if q < 0 then [45] else []) ++ (dec (n / 1000) ++ tail))
          (if q < 0 then -((n : ℚ) / 1000) else (n : ℚ) / 1000) := by
      intro tail ht hm
      have hdig := dec_all_digit (n / 1000)
      cases hd : dec (n / 1000) with
      | nil => exact absurd hd (dec_ne_nil _)
      | cons b r =>
        rw [hd] at hm hdig
        refine isNum_signed (hdig b (by simp)) ?_ hm
        intro x hx
        have hx : x ∈ (b :: r) ++ tail := hx
        rw [List.mem_append] at hx
        rcases hx with hx | hx
        · exact digit_regular (hdig x hx)
        · exact ht x hx
    have hfx : trimmed q = (if q < 0 then [45] else []) ++ (dec (n / 1000) ++
        (if n % 1000 = 0 then [] else [46] ++ ((padL 3 (dec (n % 1000))).reverse.dropWhile (· == 48)).reverse)) := by
      simp only [trimmed, ← hn, List.append_assoc]
    rw [hfx]
    apply key
    · intro x hx
      split_ifs at hx
      · simp at hx
      · simp only [List.singleton_append, List.mem_cons, List.mem_reverse] at hx
        rcases hx with rfl | hx
        · decide
        · have := (List.dropWhile_sublist _).mem hx
          exact digit_regular (padL_digits (dec_all_digit _) x (List.mem_reverse.1 this))
    · split_ifs with h0
      · rw [List.append_nil, magnitude_int, ← hsum, h0]; simp
      · rw [List.singleton_append, magnitude_frac _ _ (by
          intro x hx
          have := (List.dropWhile_sublist _).mem (List.mem_reverse.1 hx)
          exact padL_digits (dec_all_digit _) x (List.mem_reverse.1 this)), decVal_strip, ← hsum]
        have hlen : (padL 3 (dec (n % 1000))).length = 3 :=
          padL_length ((dec_length_le_iff (by decide)).2 (Nat.mod_lt _ (by decide)))
        rw [hlen, decVal_padL, decVal_dec]
        norm_num
  · rw [hv]
    have hr := roundAway_near (1000 * q)
    unfold Near
    have : (roundAway (1000 * q) : ℚ) / 1000 - q = ((roundAway (1000 * q) : ℚ) - 1000 * q) / 1000 := by ring
    rw [this, abs_div, abs_of_pos (by norm_num : (0 : ℚ) < 1000), div_le_iff₀ (by norm_num)]
    linarith

end Verif.Content
