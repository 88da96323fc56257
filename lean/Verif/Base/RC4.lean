import Verif.Base.Bytes
/- The RC4 stream cipher (the algorithm implemented by Go's crypto/rc4). -/
namespace Verif.RC4

def swap (s : List UInt8) (i j : Nat) : List UInt8 :=
  let a := s.getD i 0
  let b := s.getD j 0
  (s.set i b).set j a

/-- Key schedule: `for i in 0..255 { j += s[i] + key[i % len]; swap }`. -/
def ksaLoop (key : Bytes) : List Nat → List UInt8 → Nat → List UInt8
  | [], s, _ => s
  | i :: is, s, j =>
    let j := (j + (s.getD i 0).toNat + (key.getD (i % key.length) 0).toNat) % 256
    ksaLoop key is (swap s i j) j

def ksa (key : Bytes) : List UInt8 :=
  ksaLoop key (List.range 256) ((List.range 256).map UInt8.ofNat) 0

/-- Output generator: the next `n` keystream bytes. -/
def prga : Nat → List UInt8 → Nat → Nat → Bytes
  | 0, _, _, _ => []
  | n + 1, s, i, j =>
    let i := (i + 1) % 256
    let x := s.getD i 0
    let j := (j + x.toNat) % 256
    let s := swap s i j
    let y := s.getD i 0
    s.getD ((x.toNat + y.toNat) % 256) 0 :: prga n s i j

def keystream (key : Bytes) (n : Nat) : Bytes := prga n (ksa key) 0 0

/-- `XORKeyStream` from a fresh cipher. -/
def xorKeyStream (key src : Bytes) : Bytes :=
  List.zipWith (· ^^^ ·) src (keystream key src.length)

end Verif.RC4
