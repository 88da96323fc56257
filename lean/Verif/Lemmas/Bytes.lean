import Verif.Base.Bytes
namespace Verif

@[simp] theorem dropPrefix?_append (p bs : Bytes) : dropPrefix? p (p ++ bs) = some bs := by
  induction p with
  | nil => rfl
  | cons a p ih => simp [dropPrefix?, ih]

theorem dropPrefix?_eq_some {p bs r : Bytes} : dropPrefix? p bs = some r ↔ bs = p ++ r := by
  induction p generalizing bs with
  | nil => simp [dropPrefix?, eq_comm]
  | cons a p ih =>
    cases bs with
    | nil => simp [dropPrefix?]
    | cons b bs =>
      simp only [dropPrefix?, List.cons_append, List.cons.injEq]
      split
      · next h => simp [ih, h]
      · next h => simp [Ne.symm h]

theorem chByte_isDigit {c : Char} (h : c.isDigit) : isDigit (chByte c) = true := by
  simp [Char.isDigit, UInt32.le_iff_toNat_le] at h
  have : c.toNat = c.val.toNat := rfl
  simp [isDigit, chByte]
  omega

theorem chByte_toNat_digit {c : Char} (h : c.isDigit) : (chByte c).toNat = c.toNat := by
  simp [Char.isDigit, UInt32.le_iff_toNat_le] at h
  have : c.toNat = c.val.toNat := rfl
  simp [chByte]
  omega

theorem dec_ne_nil (n : Nat) : dec n ≠ [] := by simp [dec]

theorem dec_all_digit (n : Nat) : ∀ b ∈ dec n, isDigit b = true := by
  intro b hb
  simp only [dec, List.mem_map] at hb
  obtain ⟨c, hc, rfl⟩ := hb
  exact chByte_isDigit (Nat.isDigit_of_mem_toDigits (b := 10) (by decide) (by decide) hc)

theorem decVal_foldl_map (l : List Char) (h : ∀ c ∈ l, c.isDigit) (a : Nat) :
    (l.map chByte).foldl (fun a b => 10 * a + (b.toNat - 48)) a = Nat.ofDigitChars 10 l a := by
  induction l generalizing a with
  | nil => rfl
  | cons c l ih =>
    have hc := chByte_toNat_digit (h c (by simp))
    simp only [List.map_cons, List.foldl_cons, Nat.ofDigitChars]
    rw [hc]
    exact ih (fun c hc => h c (by simp [hc])) _

theorem decVal_dec (n : Nat) : decVal (dec n) = n := by
  unfold decVal dec
  rw [decVal_foldl_map _ (fun c hc => Nat.isDigit_of_mem_toDigits (b := 10) (by decide) (by decide) hc)]
  exact Nat.ofDigitChars_ten_toDigits

theorem dec_length_le_iff {n k : Nat} (hk : 0 < k) : (dec n).length ≤ k ↔ n < 10 ^ k := by
  simp [dec, Nat.length_toDigits_le_iff (b := 10) (by decide) hk]

theorem dec_inj {a b : Nat} (h : dec a = dec b) : a = b := by
  rw [← decVal_dec a, h, decVal_dec]

theorem decVal_append (a b : Bytes) :
    decVal (a ++ b) = b.foldl (fun a b => 10 * a + (b.toNat - 48)) (decVal a) := by
  simp [decVal]

theorem decVal_zeros (k : Nat) (bs : Bytes) : decVal (List.replicate k 48 ++ bs) = decVal bs := by
  induction k with
  | zero => simp
  | succ k ih =>
    rw [List.replicate_succ, List.cons_append]
    simpa [decVal] using ih

theorem takeWhile_digit_append {d rest : Bytes} (hd : ∀ b ∈ d, isDigit b = true)
    (hr : ∀ b ∈ rest.head?, isDigit b = false) :
    (d ++ rest).takeWhile isDigit = d ∧ (d ++ rest).dropWhile isDigit = rest := by
  induction d with
  | nil =>
    cases rest with
    | nil => simp
    | cons b r => simp at hr; simp [hr]
  | cons a d ih =>
    have ha := hd a (by simp)
    obtain ⟨h1, h2⟩ := ih (fun b hb => hd b (by simp [hb]))
    simp [ha, h1, h2]

end Verif
