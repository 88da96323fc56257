import Verif.Base.RC4
/- Model of pdf_protection.go. MD5 is a parameter `md5`. `int` is 64-bit two's complement. -/
namespace Verif.Protect

/-- `protectionPadding` (pdf_protection.go 22-25). -/
def protectionPadding : Bytes :=
  [0x28, 0xBF, 0x4E, 0x5E, 0x4E, 0x75, 0x8A, 0x41, 0x64, 0x00, 0x4E, 0x56, 0xFF, 0xFA, 0x01, 0x08,
   0x2E, 0x2E, 0x00, 0xB6, 0xD0, 0x68, 0x3E, 0x80, 0x2F, 0x0C, 0xA9, 0xFE, 0x64, 0x53, 0x69, 0x7A]

/-- `PDFProtection` (pdf_protection.go 28-35). -/
structure PDFProtection where
  uValue : Bytes
  oValue : Bytes
  pValue : BitVec 64
  encryptionKey : Bytes

/-- `rc4Cip` (pdf_protection.go 139-147); `rc4.NewCipher` rejects keys that are empty or longer than 256 bytes. -/
def rc4Cip (key src : Bytes) : Option Bytes :=
  if key.length < 1 ∨ 256 < key.length then none else some (RC4.xorKeyStream key src)

/-- `createOValue` (pdf_protection.go 87-97). -/
def createOValue (md5 : Bytes → Bytes) (userPadded ownerPadded : Bytes) : Option Bytes :=
  rc4Cip ((md5 ownerPadded).take 5) userPadded

/-- `createUValue` (pdf_protection.go 99-114): the encryption key and the U value.
`byte(protection)` is the low byte. -/
def createUValue (md5 : Bytes → Bytes) (userPadded oValue : Bytes) (protection : BitVec 64) :
    Option (Bytes × Bytes) := do
  let key := (md5 (userPadded ++ oValue ++ [UInt8.ofNat protection.toNat, 0xff, 0xff, 0xff])).take 5
  let u ← rc4Cip key protectionPadding
  pure (key, u)

/-- `generateEncryptionKey` (pdf_protection.go 50-73). Passwords are values here: the possible aliasing of the
caller's slices by `append` is not modelled. -/
def generateEncryptionKey (md5 : Bytes → Bytes) (userPass ownerPass : Bytes) (protection : BitVec 64) :
    Option PDFProtection := do
  let userPadded := (userPass ++ protectionPadding).take 32
  let ownerPadded := (ownerPass ++ protectionPadding).take 32
  let o ← createOValue md5 userPadded ownerPadded
  let (key, u) ← createUValue md5 userPadded o protection
  pure { uValue := u, oValue := o, pValue := -((protection ^^^ 255) + 1), encryptionKey := key }

/-- `setProtection` (pdf_protection.go 42-48); `random` is what `randomPass(24)` returned. -/
def setProtection (md5 : Bytes → Bytes) (random : Bytes) (permissions : BitVec 64) (userPass ownerPass : Bytes) :
    Option PDFProtection :=
  let protection := 192 ||| permissions
  let ownerPass := if ownerPass.length = 0 then random else ownerPass
  generateEncryptionKey md5 userPass ownerPass protection

/-- `objectkey` (pdf_protection.go 131-137): little-endian low three bytes of the object number, two zeros. -/
def objectkey (md5 : Bytes → Bytes) (key : Bytes) (n : Nat) : Bytes :=
  (md5 (key ++ [UInt8.ofNat n, UInt8.ofNat (n / 2 ^ 8), UInt8.ofNat (n / 2 ^ 16), 0, 0])).take 10

end Verif.Protect
