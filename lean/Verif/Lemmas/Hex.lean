import Verif.Base.Hex
import Verif.Lemmas.Bytes
namespace Verif

theorem upByte_digitChar {k : Nat} (h : k < 16) : upByte (chByte k.digitChar) = hexDigit k := by
  have : ∀ k < 16, upByte (chByte k.digitChar) = hexDigit k := by decide
  exact this k h

theorem hexUp_lt {n : Nat} (h : n < 16) : hexUp n = [hexDigit n] := by
  simp [hexUp, Nat.toDigits_of_lt_base h, upByte_digitChar h]

theorem hexUp_ge {n : Nat} (h : 16 ≤ n) : hexUp n = hexUp (n / 16) ++ [hexDigit (n % 16)] := by
  simp [hexUp, Nat.toDigits_of_base_le (by decide : 1 < 16) h,
    upByte_digitChar (Nat.mod_lt n (by decide : 16 > 0))]

theorem hexDigit_zero : hexDigit 0 = 48 := by decide

theorem hexUp_length_le_iff {n k : Nat} (hk : 0 < k) : (hexUp n).length ≤ k ↔ n < 16 ^ k := by
  simp [hexUp, Nat.length_toDigits_le_iff (b := 16) (by decide) hk]

/-- `%04X` of a 16-bit value is four hex digits. -/
theorem padL_hexUp {n : Nat} (h : n < 65536) :
    padL 4 (hexUp n) = [hexDigit (n / 4096), hexDigit (n / 256 % 16), hexDigit (n / 16 % 16), hexDigit (n % 16)] := by
  by_cases h1 : n < 16
  · have e1 : n / 4096 = 0 := by omega
    have e2 : n / 256 = 0 := by omega
    have e3 : n / 16 = 0 := by omega
    have e4 : n % 16 = n := by omega
    rw [hexUp_lt h1, e1, e2, e3, e4]; simp [padL, hexDigit_zero]
  · rw [hexUp_ge (by omega)]
    by_cases h2 : n / 16 < 16
    · have e1 : n / 4096 = 0 := by omega
      have e2 : n / 256 = 0 := by omega
      have e3 : n / 16 % 16 = n / 16 := by omega
      rw [hexUp_lt h2, e1, e2, e3]; simp [padL, hexDigit_zero]
    · rw [hexUp_ge (n := n / 16) (by omega)]
      have d2 : n / 16 / 16 = n / 256 := by omega
      rw [d2]
      by_cases h3 : n / 256 < 16
      · have e1 : n / 4096 = 0 := by omega
        have e2 : n / 256 % 16 = n / 256 := by omega
        rw [hexUp_lt h3, e1, e2]; simp [padL, hexDigit_zero]
      · rw [hexUp_ge (n := n / 256) (by omega)]
        have d3 : n / 256 / 16 = n / 4096 := by omega
        rw [d3, hexUp_lt (by omega)]
        simp [padL]

theorem hexVal_hexDigit {k : Nat} (h : k < 16) : hexVal (hexDigit k) = some k := by
  have : ∀ k < 16, hexVal (hexDigit k) = some k := by decide
  exact this k h

theorem hexDecode_padL {n : Nat} (h : n < 65536) (rest : Bytes) :
    hexDecode (padL 4 (hexUp n) ++ rest) =
      (hexDecode rest).map fun r => UInt8.ofNat (n / 256) :: UInt8.ofNat (n % 256) :: r := by
  rw [padL_hexUp h]
  simp only [List.cons_append, List.nil_append, hexDecode]
  rw [hexVal_hexDigit (by omega), hexVal_hexDigit (by omega), hexVal_hexDigit (by omega),
    hexVal_hexDigit (by omega)]
  have e1 : 16 * (n / 4096) + n / 256 % 16 = n / 256 := by omega
  have e2 : 16 * (n / 16 % 16) + n % 16 = n % 256 := by omega
  rw [Option.bind_eq_bind]
  simp only [Option.bind_eq_bind, Option.bind_some, e1, e2]
  cases hexDecode rest <;> rfl

end Verif
