import Verif.Base.Hex
/- UTF-16BE text strings in hexadecimal form (ISO 32000-1 §7.9.2.2, RFC 2781), independent of the model. -/
namespace Verif.Utf16

/-- Big-endian 16-bit units. -/
def units : Bytes → Option (List Nat)
  | [] => some []
  | [_] => none
  | a :: b :: rest => (units rest).map fun r => (256 * a.toNat + b.toNat) :: r

/-- Combine surrogate pairs; unpaired surrogates are an error. -/
def decodeUnits : List Nat → Option (List Nat)
  | [] => some []
  | [u] => if 0xD800 ≤ u ∧ u ≤ 0xDFFF then none else some [u]
  | u :: v :: rest =>
    if 0xD800 ≤ u ∧ u ≤ 0xDBFF then
      if 0xDC00 ≤ v ∧ v ≤ 0xDFFF then
        (decodeUnits rest).map fun r => (0x10000 + (u - 0xD800) * 0x400 + (v - 0xDC00)) :: r
      else none
    else if 0xDC00 ≤ u ∧ u ≤ 0xDFFF then none
    else (decodeUnits (v :: rest)).map fun r => u :: r

/-- The text denoted by the content of a hexadecimal string that starts with the byte-order mark FEFF. -/
def textOfHex (hex : Bytes) : Option (List Nat) := do
  let b ← hexDecode hex
  let b ← dropPrefix? [0xFE, 0xFF] b
  let u ← units b
  decodeUnits u

/-- Read `/Key <hex>⏎` lines until something else comes; the text of each. -/
def infoFields : Nat → Bytes → List (Bytes × Option (List Nat))
  | 0, _ => []
  | fuel + 1, bs =>
    match bs with
    | 47 :: r =>
      let key := r.takeWhile (fun b => b != 32)
      match dropPrefix? [32, 60] (r.dropWhile fun b => b != 32) with
      | some r =>
        let hex := r.takeWhile (fun b => b != 62)
        match dropPrefix? [62, 10] (r.dropWhile fun b => b != 62) with
        | some r => (key, textOfHex hex) :: infoFields fuel r
        | none => []
      | none => []
    | _ => []

/-- Code points of a Go string iterated with `range`: scalar values. -/
def Scalar (r : Nat) : Prop := r < 0xD800 ∨ (0xDFFF < r ∧ r ≤ 0x10FFFF)

end Verif.Utf16
