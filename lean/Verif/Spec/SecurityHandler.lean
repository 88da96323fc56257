import Verif.Base.RC4
/-
The standard security handler, revision 2 with 40-bit keys, from ISO 32000-1 §7.6 (Algorithms 1, 2, 4, 6 and 7).
MD5 is a parameter.  Written from the standard, not from gopdf.
-/
namespace Verif.SecurityHandler

/-- The 32-byte padding string of Algorithm 2 (a). -/
def padding : Bytes :=
  [0x28, 0xBF, 0x4E, 0x5E, 0x4E, 0x75, 0x8A, 0x41, 0x64, 0x00, 0x4E, 0x56, 0xFF, 0xFA, 0x01, 0x08,
   0x2E, 0x2E, 0x00, 0xB6, 0xD0, 0x68, 0x3E, 0x80, 0x2F, 0x0C, 0xA9, 0xFE, 0x64, 0x53, 0x69, 0x7A]

/-- Pad or truncate a password to 32 bytes. -/
def pad (pass : Bytes) : Bytes := (pass ++ padding).take 32

/-- What the handler reads from the file: /O, /U, /P (a signed integer) and the first element of /ID. -/
structure EncDict where
  o : Bytes
  u : Bytes
  p : Int
  id0 : Bytes

/-- Algorithm 2 (c): `/P` as an unsigned 32-bit number, low-order byte first. -/
def pBytes (p : Int) : Bytes :=
  let n := (p % 2 ^ 32).toNat
  [UInt8.ofNat n, UInt8.ofNat (n / 2 ^ 8), UInt8.ofNat (n / 2 ^ 16), UInt8.ofNat (n / 2 ^ 24)]

/-- Algorithm 2: the file encryption key for a user password. -/
def fileKey (md5 : Bytes → Bytes) (e : EncDict) (userPass : Bytes) : Bytes :=
  (md5 (pad userPass ++ e.o ++ pBytes e.p ++ e.id0)).take 5

/-- Algorithms 4 and 6: authenticate a user password. -/
def authUser (md5 : Bytes → Bytes) (e : EncDict) (userPass : Bytes) : Bool :=
  RC4.xorKeyStream (fileKey md5 e userPass) padding == e.u

/-- Algorithm 7: the (padded) user password an owner password unlocks. -/
def userFromOwner (md5 : Bytes → Bytes) (e : EncDict) (ownerPass : Bytes) : Bytes :=
  RC4.xorKeyStream ((md5 (pad ownerPass)).take 5) e.o

/-- Algorithm 7: authenticate an owner password. -/
def authOwner (md5 : Bytes → Bytes) (e : EncDict) (ownerPass : Bytes) : Bool :=
  authUser md5 e (userFromOwner md5 e ownerPass)

/-- Algorithm 1: the key for object `num`, generation `gen`. -/
def objKey (md5 : Bytes → Bytes) (key : Bytes) (num gen : Nat) : Bytes :=
  (md5 (key ++ [UInt8.ofNat num, UInt8.ofNat (num / 2 ^ 8), UInt8.ofNat (num / 2 ^ 16),
    UInt8.ofNat gen, UInt8.ofNat (gen / 2 ^ 8)])).take (min (key.length + 5) 16)

/-- Decrypt a string or stream of an object. -/
def decrypt (md5 : Bytes → Bytes) (key : Bytes) (num : Nat) (data : Bytes) : Bytes :=
  RC4.xorKeyStream (objKey md5 key num 0) data

/-- Table 22: the user access permission granted by `/P`: bit position `b` (1-based) of the 32-bit value. -/
def granted (p : Int) (b : Nat) : Bool := ((p % 2 ^ 32).toNat).testBit (b - 1)

end Verif.SecurityHandler
