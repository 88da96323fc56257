import Verif.Base.Bytes
namespace Verif

/-- ASCII upper-casing of a lower-case letter. -/
def upByte (b : UInt8) : UInt8 := if 97 ≤ b.toNat ∧ b.toNat ≤ 122 then b - 32 else b

/-- Go's `%X` for a non-negative integer. -/
def hexUp (n : Nat) : Bytes := (Nat.toDigits 16 n).map fun c => upByte (chByte c)

/-- Left-pad with `0` to at least `k` characters (Go's `%04X`, or the loop in `encodeUtf8`). -/
def padL (k : Nat) (s : Bytes) : Bytes := List.replicate (k - s.length) 48 ++ s

/-- Decode pairs of hex digits to bytes (the content of a PDF hexadecimal string, ISO 32000-1 §7.3.4.3;
an odd final digit is followed by an assumed 0). -/
def hexDecode : Bytes → Option Bytes
  | [] => some []
  | [a] => do let x ← hexVal a; pure [UInt8.ofNat (16 * x)]
  | a :: b :: rest => do
    let x ← hexVal a
    let y ← hexVal b
    let r ← hexDecode rest
    pure (UInt8.ofNat (16 * x + y) :: r)

end Verif
