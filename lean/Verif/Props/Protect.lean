import Verif.Lemmas.Protect
import Verif.Model.Streams
import Verif.Model.Escape
import Verif.Lemmas.Escape
import Verif.Spec.StreamObject
/- C18, C19, C20: encryption. -/
namespace Verif.Props
open Protect SecurityHandler Streams

/-- RC4 test vector (a test of the model, not a theorem about gopdf). -/
example : RC4.xorKeyStream (lit "Key") (lit "Plaintext") = [0xBB,0xF3,0x16,0xE8,0xD9,0x40,0xAF,0x0A,0xD3] := by
  decide +kernel

/-- **C18** decrypting with the same key restores the data, and the length never changes. -/
theorem rc4_invertible (key src c : Bytes) (h : rc4Cip key src = some c) :
    c.length = src.length ∧ rc4Cip key c = some src := by
  have hc := rc4Cip_some h
  subst hc
  refine ⟨xorKeyStream_length key src, ?_⟩
  unfold rc4Cip at h ⊢
  split at h
  · simp at h
  · next hk => rw [if_neg hk, xorKeyStream_invol]

/-- **C18** the per-object key is the one of Algorithm 1 of the standard, for every 5-byte file key. -/
theorem objectkey_standard (md5 : Bytes → Bytes) (key : Bytes) (hk : key.length = 5) (n : Nat) :
    objectkey md5 key n = objKey md5 key n 0 := by
  simp [objectkey, objKey, hk]

theorem cipher_some {md5 : Bytes → Bytes} {key : Bytes} (hk : key.length = 5) {n : Nat} {data c : Bytes}
    (h : cipher md5 (some key) n data = some c) :
    c.length = data.length ∧ decrypt md5 key n c = data := by
  have hc := rc4Cip_some h
  subst hc
  refine ⟨xorKeyStream_length _ _, ?_⟩
  rw [objectkey_standard md5 key hk]
  exact xorKeyStream_invol _ _

/-- **C18** every kind of stream object written for a protected document declares the length of the data that
follows, and that data decrypts (Algorithm 1, with the object's own number) to the unprotected stream.
Covers page content, ToUnicode map, font file, image, soft mask and palette. -/
theorem protected_stream_roundtrip (md5 : Bytes → Bytes) (key : Bytes) (hk : key.length = 5) (objID : Nat)
    (flate : Bool) (props data : Bytes) (plainLen : Nat) (body : Bytes)
    (h : body ∈ (content md5 (some key) objID flate data) ∨ body ∈ (unicodeMap md5 (some key) objID data) ∨
         body ∈ (fontFile md5 (some key) objID data plainLen) ∨ body ∈ (image md5 (some key) objID props data) ∨
         body ∈ (smask md5 (some key) objID props data) ∨ body ∈ (deviceRGB md5 (some key) objID data)) :
    ∃ n c, StreamObject body n c ∧ n = c.length ∧ decrypt md5 key objID c = data := by
  have e : lit ">>\nstream\n" = lit ">>\n" ++ lit "stream\n" := by decide
  have e2 : lit "\n>>\n" = lit "\n" ++ lit ">>\n" := by decide
  have e3 : lit "\nendstream\n" = lit "\n" ++ lit "endstream\n" := by decide
  have e4 : lit "\n" = [10] := by decide
  simp only [Option.mem_def, content, unicodeMap, fontFile, image, smask, deviceRGB, Option.bind_eq_bind,
    Option.bind_eq_some_iff, Option.pure_def, Option.some.injEq] at h
  rcases h with ⟨c, hc, rfl⟩ | ⟨c, hc, rfl⟩ | ⟨c, hc, rfl⟩ | ⟨c, hc, rfl⟩ | ⟨c, hc, rfl⟩ | ⟨c, hc, rfl⟩ <;>
    (obtain ⟨hl, hd⟩ := cipher_some hk hc; refine ⟨data.length, c, ?_, hl.symm, hd⟩)
  · exact ⟨lit "<<\n" ++ (if flate then lit "/Filter/FlateDecode" else []), [], lit "\n",
      by simp [e, List.append_assoc], by simp [e4]⟩
  · exact ⟨lit "<<\n", [], [], by simp [e, List.append_assoc], by simp⟩
  · exact ⟨lit "<<", lit "/Filter /FlateDecode\n" ++ lit "/Length1 " ++ dec plainLen ++ lit "\n", lit "\n",
      by simp [e, e3, List.append_assoc], by simp [e4]⟩
  · exact ⟨props ++ lit "\t", [], lit "\n\n",
      by
        have : lit "\n\n" = lit "\n" ++ lit "\n" := by decide
        simp [e, e2, e3, this, List.append_assoc], by decide⟩
  · exact ⟨props, [], lit "\n\n",
      by
        have : lit "\n\n" = lit "\n" ++ lit "\n" := by decide
        simp [e, e2, e3, this, List.append_assoc], by decide⟩
  · exact ⟨lit "<<\n", [], lit "\n", by simp [e, List.append_assoc], by simp [e4]⟩

/-- A toy 16-byte digest, used only to exhibit instances of the hypotheses. -/
def toyMd5 (b : Bytes) : Bytes := (b.reverse ++ List.replicate 16 7).take 16

example : (content toyMd5 (some [1,2,3,4,5]) 7 true (lit "q Q")).isSome = true := by decide +kernel

/-- **C18** for an unprotected document the data is written as it is, with its length declared. -/
theorem plain_stream (md5 : Bytes → Bytes) (objID : Nat) (flate : Bool) (props data : Bytes) (plainLen : Nat) :
    ∀ body, (content md5 none objID flate data = some body ∨ unicodeMap md5 none objID data = some body ∨
      fontFile md5 none objID data plainLen = some body ∨ image md5 none objID props data = some body ∨
      smask md5 none objID props data = some body ∨ deviceRGB md5 none objID data = some body ∨
      xobjectGroup md5 none objID props data = some body) →
    StreamObject body data.length data := by
  have e : lit ">>\nstream\n" = lit ">>\n" ++ lit "stream\n" := by decide
  have e2 : lit "\n>>\n" = lit "\n" ++ lit ">>\n" := by decide
  have e3 : lit "\nendstream\n" = lit "\n" ++ lit "endstream\n" := by decide
  have e4 : lit "\n" = [10] := by decide
  intro body h
  simp only [content, unicodeMap, fontFile, image, smask, deviceRGB, xobjectGroup, cipher, Option.bind_eq_bind,
    Option.bind_some, Option.pure_def, Option.some.injEq, Option.isSome_none] at h
  rcases h with rfl | rfl | rfl | rfl | rfl | rfl | rfl
  · refine ⟨lit "<<\n" ++ (if flate then lit "/Filter/FlateDecode" else []), [],
      if flate then lit "\n" else [], by simp [e, List.append_assoc], ?_⟩
    cases flate <;> simp [e4]
  · exact ⟨lit "<<\n", [], [], by simp [e, List.append_assoc], by simp⟩
  · exact ⟨lit "<<", lit "/Filter /FlateDecode\n" ++ lit "/Length1 " ++ dec plainLen ++ lit "\n", lit "\n",
      by simp [e, e3, List.append_assoc], by simp [e4]⟩
  · exact ⟨props ++ lit "\t", [], lit "\n", by simp [e, e2, e3, List.append_assoc], by simp [e4]⟩
  · exact ⟨props, [], lit "\n", by simp [e, e2, e3, List.append_assoc], by simp [e4]⟩
  · exact ⟨lit "<<\n", [], [], by simp [e, List.append_assoc], by simp⟩
  · exact ⟨props ++ lit "\t", [], [], by simp [e, List.append_assoc], by simp⟩

/-- **C18** (violated for transparency groups, i.e. images with an alpha mask) the group's stream is written in
clear text in a protected document, so that a reader, which decrypts every stream, gets something else. -/
theorem xobjectGroup_not_encrypted_fails :
    ∃ (md5 : Bytes → Bytes) (key props data body : Bytes) (objID : Nat), key.length = 5 ∧
      xobjectGroup md5 (some key) objID props data = some body ∧
      StreamObject body data.length data ∧ decrypt md5 key objID data ≠ data := by
  refine ⟨toyMd5, [1, 2, 3, 4, 5], [], lit "q", _, 9, rfl, rfl, ?_, by decide +kernel⟩
  exact ⟨lit "\t", [], [], by decide, by simp⟩

/-- **C16/C18** a link URI in a protected document: encrypted with the annotation's object key, then escaped.
A reader that unescapes and decrypts gets the URI. -/
theorem protected_uri_roundtrip (md5 : Bytes → Bytes) (key : Bytes) (hk : key.length = 5) (objID : Nat)
    (url c rest : Bytes) (h : rc4Cip (objectkey md5 key objID) url = some c) :
    (LitString.readString (lit "(" ++ Escape.escape c ++ lit ")" ++ rest)).map
      (fun p => (decrypt md5 key objID p.1, p.2)) = some (url, rest) := by
  have e1 : lit "(" = [40] := by decide
  have e2 : lit ")" = [41] := by decide
  have hr : LitString.readString (lit "(" ++ Escape.escape c ++ lit ")" ++ rest) = some (c, rest) := by
    rw [e1, e2]
    have e : [40] ++ Escape.escape c ++ [41] ++ rest = 40 :: (Escape.escape c ++ 41 :: rest) := by simp
    rw [e]
    exact Escape.read_escape c rest
  rw [hr]
  have := (cipher_some (md5 := md5) hk (n := objID) (data := url) (c := c) h).2
  simp [this]

example : (rc4Cip (objectkey toyMd5 [1,2,3,4,5] 12) (lit "http://a/(b)")).isSome = true := by decide +kernel

/-- **C20** the meaning of `/P` for every permission mask: bit positions 1–8 of the 32-bit value are the requested
bits (7 and 8 always set), and each higher position is the *complement* of the requested bit. -/
theorem permission_bits (md5 : Bytes → Bytes) (random : Bytes) (perm : BitVec 64) (user owner : Bytes)
    (p : PDFProtection) (h : setProtection md5 random perm user owner = some p) (b : Nat) (h1 : 1 ≤ b) (h2 : b ≤ 32) :
    granted p.pValue.toInt b =
      if b ≤ 8 then (perm.getLsbD (b - 1) || b == 7 || b == 8) else !perm.getLsbD (b - 1) := by
  rw [(setProtection_some h).2.2.2]
  exact granted_eq perm b h1 h2

/-- **C20** hence for masks made of the exported permission constants (print 4, modify 8, copy 16, annotate 32)
exactly the requested permissions (positions 3–6) are granted, reserved positions 1–2 are clear and 7–32 are set. -/
theorem permission_bits_exported (md5 : Bytes → Bytes) (random : Bytes) (print modify copy annot : Bool)
    (user owner : Bytes) (p : PDFProtection)
    (h : setProtection md5 random ((if print then 4 else 0) ||| (if modify then 8 else 0) |||
      (if copy then 16 else 0) ||| (if annot then 32 else 0)) user owner = some p) :
    granted p.pValue.toInt 3 = print ∧ granted p.pValue.toInt 4 = modify ∧ granted p.pValue.toInt 5 = copy ∧
    granted p.pValue.toInt 6 = annot ∧ granted p.pValue.toInt 1 = false ∧ granted p.pValue.toInt 2 = false ∧
    ∀ b, 7 ≤ b → b ≤ 32 → granted p.pValue.toInt b = true := by
  have hb := permission_bits md5 random _ user owner p h
  refine ⟨?_, ?_, ?_, ?_, ?_, ?_, ?_⟩
  · rw [hb 3 (by decide) (by decide)]; cases print <;> cases modify <;> cases copy <;> cases annot <;> decide
  · rw [hb 4 (by decide) (by decide)]; cases print <;> cases modify <;> cases copy <;> cases annot <;> decide
  · rw [hb 5 (by decide) (by decide)]; cases print <;> cases modify <;> cases copy <;> cases annot <;> decide
  · rw [hb 6 (by decide) (by decide)]; cases print <;> cases modify <;> cases copy <;> cases annot <;> decide
  · rw [hb 1 (by decide) (by decide)]; cases print <;> cases modify <;> cases copy <;> cases annot <;> decide
  · rw [hb 2 (by decide) (by decide)]; cases print <;> cases modify <;> cases copy <;> cases annot <;> decide
  · intro b h7 h32
    rw [hb b (by omega) h32]
    clear h hb p
    have : ∀ b < 33, 7 ≤ b → (if b ≤ 8 then
      ((((if print then 4 else 0) ||| (if modify then 8 else 0) ||| (if copy then 16 else 0) |||
        (if annot then 32 else 0) : BitVec 64)).getLsbD (b - 1) || b == 7 || b == 8) else
      !(((if print then 4 else 0) ||| (if modify then 8 else 0) ||| (if copy then 16 else 0) |||
        (if annot then 32 else 0) : BitVec 64)).getLsbD (b - 1)) = true := by
      cases print <;> cases modify <;> cases copy <;> cases annot <;> decide
    exact this b (by omega) h7

example : (setProtection toyMd5 [] (4 ||| 16) (lit "user") (lit "owner")).isSome = true := by decide +kernel

/-- **C20** (violated for masks with higher bits) requesting bit position 12 (high-quality print, 2048) clears it. -/
theorem permission_high_bits_fails :
    ∃ (md5 : Bytes → Bytes) (p : PDFProtection), setProtection md5 [] 2048 (lit "u") (lit "o") = some p ∧
      granted p.pValue.toInt 12 = false := by
  have h : (setProtection toyMd5 [] 2048 (lit "u") (lit "o")).isSome = true := by decide +kernel
  obtain ⟨p, hp⟩ := Option.isSome_iff_exists.1 h
  refine ⟨toyMd5, p, hp, ?_⟩
  rw [permission_bits toyMd5 [] 2048 _ _ p hp 12 (by decide) (by decide)]
  decide

/-- **C19** the user password given to `SetProtection` opens the document in a standard security handler: it is
accepted, and the derived key is the key the streams are encrypted with.  For permission masks below 256, all
passwords, whatever MD5 computes.  `/ID` is `[()()]` in the file (gopdf.go 2305). -/
theorem user_password_opens (md5 : Bytes → Bytes) (random : Bytes) (perm : BitVec 64) (hp : perm.toNat < 256)
    (user owner : Bytes) (p : PDFProtection) (h : setProtection md5 random perm user owner = some p) :
    authUser md5 ⟨p.oValue, p.uValue, p.pValue.toInt, []⟩ user = true ∧
    fileKey md5 ⟨p.oValue, p.uValue, p.pValue.toInt, []⟩ user = p.encryptionKey := by
  obtain ⟨ho, hkey, hu, hpv⟩ := setProtection_some h
  have hk : fileKey md5 ⟨p.oValue, p.uValue, p.pValue.toInt, []⟩ user = p.encryptionKey := by
    rw [hkey]
    simp only [fileKey, hpv, pBytes_eq perm hp, List.append_nil]
  refine ⟨?_, hk⟩
  unfold authUser
  rw [hk, hu]
  simp

/-- **C19** the owner password (or, if none was given, the generated one) unlocks the padded user password and
therefore the document. -/
theorem owner_password_opens (md5 : Bytes → Bytes) (random : Bytes) (perm : BitVec 64) (hp : perm.toNat < 256)
    (user owner : Bytes) (p : PDFProtection) (h : setProtection md5 random perm user owner = some p) :
    let owner' := if owner.length = 0 then random else owner
    userFromOwner md5 ⟨p.oValue, p.uValue, p.pValue.toInt, []⟩ owner' = pad user ∧
    authOwner md5 ⟨p.oValue, p.uValue, p.pValue.toInt, []⟩ owner' = true ∧
    fileKey md5 ⟨p.oValue, p.uValue, p.pValue.toInt, []⟩
      (userFromOwner md5 ⟨p.oValue, p.uValue, p.pValue.toInt, []⟩ owner') = p.encryptionKey := by
  have hs := setProtection_some h
  have hu := user_password_opens md5 random perm hp user owner p h
  intro owner'
  have h1 : userFromOwner md5 ⟨p.oValue, p.uValue, p.pValue.toInt, []⟩ owner' = pad user := by
    simp only [userFromOwner]
    rw [hs.1, xorKeyStream_invol]
  have hfk : ∀ e, fileKey md5 e (pad user) = fileKey md5 e user := by
    intro e; simp only [fileKey, pad_pad]
  refine ⟨h1, ?_, ?_⟩
  · unfold authOwner; rw [h1]
    unfold authUser at hu ⊢
    rw [hfk]; exact hu.1
  · rw [h1, hfk]; exact hu.2

example : (setProtection toyMd5 (lit "abcdef") 12 (lit "secret") []).isSome = true ∧ (12 : BitVec 64).toNat < 256 := by
  decide +kernel

/-- **C19** `SetProtection` succeeds whenever the digest has at least five bytes (MD5 has sixteen). -/
theorem setProtection_succeeds (md5 : Bytes → Bytes) (hm : ∀ b, (md5 b).length = 16) (random : Bytes)
    (perm : BitVec 64) (user owner : Bytes) :
    ∃ p, setProtection md5 random perm user owner = some p ∧ p.encryptionKey.length = 5 := by
  have hr : ∀ x src, rc4Cip ((md5 x).take 5) src = some (RC4.xorKeyStream ((md5 x).take 5) src) := by
    intro x src
    unfold rc4Cip
    rw [if_neg (by simp [hm])]
  refine ⟨_, by
    simp only [setProtection, generateEncryptionKey, createOValue, createUValue, hr, Option.bind_eq_bind,
      Option.bind_some, Option.pure_def]
    rfl, ?_⟩
  simp [hm]

/-- **C19** (violated for masks with bits above position 8) what the code hashes into the key differs from what a
reader hashes, exactly when the mask has a bit among positions 9–32. -/
theorem key_material_agrees_iff (perm : BitVec 64) :
    pBytes (-(((192 ||| perm) ^^^ 255) + 1)).toInt = [UInt8.ofNat (192 ||| perm).toNat, 0xff, 0xff, 0xff] ↔
      ∀ i, 8 ≤ i → i < 32 → perm.getLsbD i = false := by
  let P : BitVec 64 := -(((192 ||| perm) ^^^ 255) + 1)
  have hbit : ∀ i, i < 64 → P.getLsbD i =
      if i < 8 then (192 ||| perm).getLsbD i else !(192 ||| perm).getLsbD i := fun i hi => pValue_bit _ i hi
  have hn : (P.toInt % 2 ^ 32).toNat = P.toNat % 2 ^ 32 := toInt_mod P
  have hbyte : ∀ k, k < 4 → (UInt8.ofNat (P.toNat % 2 ^ 32 / 2 ^ (8 * k)) = 0xff ↔
      ∀ i, 8 * k ≤ i → i < 8 * k + 8 → P.getLsbD i = true) := by
    intro k hk
    have h8 : ∀ n, n < 256 → ((∀ i < 8, n.testBit i = true) ↔ n = 255) := by decide +kernel
    rw [← UInt8.toNat_inj]
    have e255 : (0xff : UInt8).toNat = 255 := rfl
    rw [e255, UInt8.toNat_ofNat', ← h8 _ (Nat.mod_lt _ (by decide))]
    constructor
    · intro h i h1 h2
      have := h (i - 8 * k) (by omega)
      rw [show (256 : Nat) = 2 ^ 8 from rfl, Nat.testBit_mod_two_pow, Nat.testBit_div_two_pow,
        Nat.testBit_mod_two_pow] at this
      have e : i - 8 * k + 8 * k = i := by omega
      rw [e] at this
      simp at this
      rw [← BitVec.testBit_toNat]; exact this.2.2
    · intro h i hi
      rw [show (256 : Nat) = 2 ^ 8 from rfl, Nat.testBit_mod_two_pow, Nat.testBit_div_two_pow,
        Nat.testBit_mod_two_pow]
      have := h (i + 8 * k) (by omega) (by omega)
      rw [← BitVec.testBit_toNat] at this
      simp [hi, this]; omega
  have hlow : UInt8.ofNat (P.toNat % 2 ^ 32) = UInt8.ofNat (192 ||| perm).toNat := by
    rw [← UInt8.toNat_inj, UInt8.toNat_ofNat', UInt8.toNat_ofNat']
    apply Nat.eq_of_testBit_eq
    intro i
    rw [Nat.testBit_mod_two_pow, Nat.testBit_mod_two_pow, Nat.testBit_mod_two_pow, BitVec.testBit_toNat,
      BitVec.testBit_toNat]
    by_cases hi : i < 8
    · rw [hbit i (by omega)]; simp [hi]; omega
    · simp [hi]
  unfold pBytes
  simp only []
  rw [show (-(((192 ||| perm) ^^^ 255) + 1)) = P from rfl, hn, hlow]
  simp only [List.cons.injEq, true_and, and_true]
  have hb1 := hbyte 1 (by decide); have hb2 := hbyte 2 (by decide); have hb3 := hbyte 3 (by decide)
  simp only [Nat.reduceMul] at hb1 hb2 hb3
  rw [hb1, hb2, hb3]
  have hhi : ∀ i, 8 ≤ i → i < 32 → (P.getLsbD i = true ↔ perm.getLsbD i = false) := by
    intro i h1 h2
    rw [hbit i (by omega), or192_bit]
    have : ¬ i < 8 := by omega
    have n6 : (i == 6) = false := by simp; omega
    have n7 : (i == 7) = false := by simp; omega
    simp [this, n6, n7]
  constructor
  · rintro ⟨a, b, c⟩ i h1 h2
    rw [← hhi i h1 h2]
    by_cases h16 : i < 16
    · exact a i h1 h16
    · by_cases h24 : i < 24
      · exact b i (by omega) h24
      · exact c i (by omega) h2
  · intro h
    refine ⟨fun i h1 h2 => ?_, fun i h1 h2 => ?_, fun i h1 h2 => ?_⟩ <;>
      exact (hhi i (by omega) (by omega)).2 (h i (by omega) (by omega))

end Verif.Props
