import Verif.Model.Protect
import Verif.Spec.SecurityHandler
namespace Verif.Protect
open SecurityHandler

theorem prga_length (n : Nat) : ∀ s i j, (RC4.prga n s i j).length = n := by
  induction n with
  | zero => intros; rfl
  | succ n ih => intro s i j; simp [RC4.prga, ih]

theorem keystream_length (key : Bytes) (n : Nat) : (RC4.keystream key n).length = n := prga_length n _ _ _

theorem xorKeyStream_length (key src : Bytes) : (RC4.xorKeyStream key src).length = src.length := by
  simp [RC4.xorKeyStream, keystream_length]

theorem zipWith_xor_xor (a k : Bytes) (h : a.length ≤ k.length) :
    List.zipWith (· ^^^ ·) (List.zipWith (· ^^^ ·) a k) k = a := by
  induction a generalizing k with
  | nil => simp
  | cons x a ih =>
    cases k with
    | nil => simp at h
    | cons y k => simp [ih k (by simpa using h), UInt8.xor_assoc]

theorem xorKeyStream_invol (key src : Bytes) :
    RC4.xorKeyStream key (RC4.xorKeyStream key src) = src := by
  unfold RC4.xorKeyStream
  rw [show (List.zipWith (· ^^^ ·) src (RC4.keystream key src.length)).length = src.length by
    simp [keystream_length]]
  exact zipWith_xor_xor _ _ (by simp [keystream_length])

theorem neg_add_one (x : BitVec 64) : -(x + 1) = ~~~x := by
  have := BitVec.neg_eq_not_add (x := x)
  have h2 : ~~~x = -x - 1 := by
    rw [this]; show _ = ~~~x + 1#64 - 1#64
    rw [BitVec.add_sub_cancel]
  rw [h2]; grind

theorem pValue_bit (p : BitVec 64) (i : Nat) (hi : i < 64) :
    (-((p ^^^ 255) + 1)).getLsbD i = if i < 8 then p.getLsbD i else !p.getLsbD i := by
  rw [neg_add_one]
  have h : ∀ i < 64, (255#64).getLsbD i = decide (i < 8) := by decide
  have h2 : (~~~(p ^^^ 255)).getLsbD i = !(p.getLsbD i ^^ decide (i < 8)) := by
    rw [← h i hi]; simp [hi]
  rw [h2]
  by_cases h8 : i < 8 <;> simp [h8]

/-- The 32-bit value a reader sees. -/
theorem toInt_mod (x : BitVec 64) : (x.toInt % 2 ^ 32).toNat = x.toNat % 2 ^ 32 := by
  have hx := x.isLt
  rw [BitVec.toInt_eq_toNat_bmod, Int.bmod]
  simp only [Nat.reducePow, Int.reducePow] at *
  split <;> omega

theorem or192_bit (perm : BitVec 64) (i : Nat) :
    (192 ||| perm).getLsbD i = (perm.getLsbD i || i == 6 || i == 7) := by
  by_cases hi : i < 64
  · have h : ∀ i < 64, (192#64).getLsbD i = (i == 6 || i == 7) := by decide
    have h2 : (192 ||| perm).getLsbD i = ((192#64).getLsbD i || perm.getLsbD i) := by simp
    rw [h2, h i hi]
    cases perm.getLsbD i <;> simp
  · rw [BitVec.getLsbD_of_ge _ _ (by omega), BitVec.getLsbD_of_ge _ _ (by omega)]
    simp; omega

theorem granted_eq (perm : BitVec 64) (b : Nat) (h1 : 1 ≤ b) (h2 : b ≤ 32) :
    granted (-(((192 ||| perm) ^^^ 255) + 1)).toInt b =
      if b ≤ 8 then (perm.getLsbD (b - 1) || b == 7 || b == 8) else !perm.getLsbD (b - 1) := by
  unfold granted
  rw [toInt_mod, Nat.testBit_mod_two_pow]
  have hlt : b - 1 < 32 := by omega
  rw [BitVec.testBit_toNat, pValue_bit _ _ (by omega), or192_bit]
  have e7 : (b - 1 == 6) = (b == 7) := by rw [Bool.eq_iff_iff]; simp
  have e8 : (b - 1 == 7) = (b == 8) := by rw [Bool.eq_iff_iff]; simp
  by_cases h8 : b ≤ 8
  · have : b - 1 < 8 := by omega
    simp only [hlt, this, h8, if_true, decide_true, Bool.true_and, e7, e8]
  · have : ¬ b - 1 < 8 := by omega
    have n7 : (b == 7) = false := by simp; omega
    have n8 : (b == 8) = false := by simp; omega
    simp only [hlt, this, h8, if_false, decide_true, Bool.true_and, e7, e8, n7, n8, Bool.or_false]

/-- The four key bytes derived from `/P` agree with those the code hashes, for masks below 256. -/
theorem pBytes_eq (perm : BitVec 64) (h : perm.toNat < 256) :
    pBytes (-(((192 ||| perm) ^^^ 255) + 1)).toInt = [UInt8.ofNat (192 ||| perm).toNat, 0xff, 0xff, 0xff] := by
  have hb : ∃ k < 256, perm = BitVec.ofNat 64 k := ⟨perm.toNat, h, by simp⟩
  obtain ⟨k, hk, rfl⟩ := hb
  have : ∀ k < 256, pBytes (-(((192 ||| BitVec.ofNat 64 k) ^^^ 255) + 1)).toInt =
      [UInt8.ofNat (192 ||| BitVec.ofNat 64 k).toNat, 0xff, 0xff, 0xff] := by decide +kernel
  exact this k hk

theorem pad_eq (p : Bytes) : (p ++ protectionPadding).take 32 = pad p := rfl

theorem pad_length (p : Bytes) : (pad p).length = 32 := by
  have : padding.length = 32 := by decide
  simp [pad, this]

theorem pad_pad (p : Bytes) : pad (pad p) = pad p := by
  show (pad p ++ padding).take 32 = pad p
  rw [List.take_left' (pad_length p)]

theorem rc4Cip_some {key src d : Bytes} (h : rc4Cip key src = some d) : d = RC4.xorKeyStream key src := by
  unfold rc4Cip at h; split at h
  · simp at h
  · exact (Option.some.inj h).symm

/-- What a successful `setProtection` computed. -/
theorem setProtection_some {md5 : Bytes → Bytes} {random : Bytes} {perm : BitVec 64} {user owner : Bytes}
    {p : PDFProtection} (h : setProtection md5 random perm user owner = some p) :
    let owner' := if owner.length = 0 then random else owner
    p.oValue = RC4.xorKeyStream ((md5 (pad owner')).take 5) (pad user) ∧
    p.encryptionKey = (md5 (pad user ++ p.oValue ++ [UInt8.ofNat (192 ||| perm).toNat, 0xff, 0xff, 0xff])).take 5 ∧
    p.uValue = RC4.xorKeyStream p.encryptionKey padding ∧
    p.pValue = -(((192 ||| perm) ^^^ 255) + 1) := by
  simp only [setProtection, generateEncryptionKey, pad_eq, Option.bind_eq_bind, Option.bind_eq_some_iff,
    createOValue, createUValue] at h
  obtain ⟨o, ho, ku, ⟨u, hu, hku⟩, hp⟩ := h
  have ho := rc4Cip_some ho
  have hu := rc4Cip_some hu
  simp only [Option.pure_def, Option.some.injEq] at hku hp
  subst hku; subst hp
  exact ⟨ho, rfl, hu, rfl⟩

end Verif.Protect
