/-
Byte strings and the textual number formats used all over the writer.
Nothing here is specific to gopdf except that it mirrors `fmt`'s `%d` and `%X`.
-/
namespace Verif

/-- A byte string (Go `[]byte` or the bytes of a Go `string`). -/
abbrev Bytes := List UInt8

/-- The bytes of an ASCII literal. -/
def lit (s : String) : Bytes := s.toList.map fun c => UInt8.ofNat c.toNat

/-- Byte of an ASCII character. -/
def chByte (c : Char) : UInt8 := UInt8.ofNat c.toNat

/-- Decimal text of a natural number: Go's `%d` / `strconv.FormatInt(n, 10)` for `n ≥ 0`. -/
def dec (n : Nat) : Bytes := (Nat.toDigits 10 n).map chByte

/-- Decimal text of an integer: Go's `%d`. -/
def decInt : Int → Bytes
  | .ofNat n => dec n
  | .negSucc n => 45 :: dec (n + 1)

/-- Is the byte an ASCII decimal digit? -/
def isDigit (b : UInt8) : Bool := 48 ≤ b.toNat && b.toNat ≤ 57

/-- Value of a decimal digit string (most significant first). -/
def decVal (bs : Bytes) : Nat := bs.foldl (fun a b => 10 * a + (b.toNat - 48)) 0

/-- One upper-case hexadecimal digit. -/
def hexDigit (n : Nat) : UInt8 := if n < 10 then UInt8.ofNat (48 + n) else UInt8.ofNat (55 + n)

/-- Value of an upper-case or lower-case hex digit. -/
def hexVal (b : UInt8) : Option Nat :=
  if 48 ≤ b.toNat && b.toNat ≤ 57 then some (b.toNat - 48)
  else if 65 ≤ b.toNat && b.toNat ≤ 70 then some (b.toNat - 55)
  else if 97 ≤ b.toNat && b.toNat ≤ 102 then some (b.toNat - 87)
  else none

/-- Remove a prefix, or fail. -/
def dropPrefix? : Bytes → Bytes → Option Bytes
  | [], bs => some bs
  | _ :: _, [] => none
  | p :: ps, b :: bs => if p = b then dropPrefix? ps bs else none

end Verif
