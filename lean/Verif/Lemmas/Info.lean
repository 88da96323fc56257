import Verif.Model.Info
import Verif.Spec.Utf16
import Verif.Lemmas.Hex
namespace Verif.Info
open Utf16

/-- Representable in one UTF-16 unit. -/
def Bmp (r : Nat) : Prop := r < 0xD800 ∨ (0xDFFF < r ∧ r < 0x10000)

theorem hexDecode_encode (s : List Nat) (h : ∀ r ∈ s, r < 65536) :
    hexDecode (encodeUtf8 s) = some (s.flatMap fun r => [UInt8.ofNat (r / 256), UInt8.ofNat (r % 256)]) := by
  induction s with
  | nil => rfl
  | cons r s ih =>
    have := hexDecode_padL (h r (by simp)) (encodeUtf8 s)
    rw [ih (fun r hr => h r (by simp [hr]))] at this
    simpa [encodeUtf8] using this

theorem units_flatMap (s : List Nat) (h : ∀ r ∈ s, r < 65536) :
    units (s.flatMap fun r => [UInt8.ofNat (r / 256), UInt8.ofNat (r % 256)]) = some s := by
  induction s with
  | nil => rfl
  | cons r s ih =>
    have hr := h r (by simp)
    simp only [List.flatMap_cons, List.cons_append, List.nil_append, units]
    rw [ih (fun r hr => h r (by simp [hr]))]
    simp; omega

theorem decodeUnits_bmp (s : List Nat) (h : ∀ r ∈ s, Bmp r) : decodeUnits s = some s := by
  induction s with
  | nil => rfl
  | cons r s ih =>
    have hr := h r (by simp)
    unfold Bmp at hr
    have hs := ih (fun r hr => h r (by simp [hr]))
    cases s with
    | nil => simp only [decodeUnits]; rw [if_neg (by omega)]
    | cons v rest =>
      simp only [decodeUnits]
      rw [if_neg (by omega), if_neg (by omega), hs]; rfl

theorem textOfHex_encode (s : List Nat) (h : ∀ r ∈ s, Bmp r) :
    textOfHex (lit "FEFF" ++ encodeUtf8 s) = some s := by
  have h16 : ∀ r ∈ s, r < 65536 := fun r hr => by have := h r hr; unfold Bmp at this; omega
  have e : lit "FEFF" = padL 4 (hexUp 0xFEFF) := by decide
  unfold textOfHex
  rw [e, hexDecode_padL (by decide), hexDecode_encode s h16]
  simp only [Option.map_some, Option.bind_eq_bind, Option.bind_some]
  have e1 : UInt8.ofNat (0xFEFF / 256) = 0xFE := by decide
  have e2 : UInt8.ofNat (0xFEFF % 256) = 0xFF := by decide
  rw [e1, e2]
  simp only [dropPrefix?, if_true, Option.bind_some, units_flatMap s h16, decodeUnits_bmp s h]

theorem hexDigit_ne_62 {k : Nat} (h : k < 16) : hexDigit k ≠ 62 := by
  have : ∀ k < 16, hexDigit k ≠ 62 := by decide
  exact this k h

theorem encode_no_gt (s : List Nat) (h : ∀ r ∈ s, r < 65536) : ∀ b ∈ encodeUtf8 s, (b != 62) = true := by
  intro b hb
  simp only [encodeUtf8, List.mem_flatMap] at hb
  obtain ⟨r, hr, hb⟩ := hb
  have := h r hr
  rw [padL_hexUp this] at hb
  simp only [List.mem_cons, List.not_mem_nil, or_false] at hb
  have hh : b ≠ 62 := by
    rcases hb with rfl | rfl | rfl | rfl <;> exact hexDigit_ne_62 (by omega)
  simp [hh]

theorem infoFields_line (key : String) (hkey : ∀ b ∈ lit key, (b != 32) = true) (s : List Nat) (fuel : Nat)
    (rest : Bytes) (h : ∀ r ∈ s, Bmp r) :
    infoFields (fuel + (infoLine key s).length) ((infoLine key s).flatten ++ rest) =
      (if s = [] then [] else [(lit key, some s)]) ++ infoFields fuel rest := by
  unfold infoLine
  by_cases hs : s = []
  · simp [hs]
  · have h16 : ∀ r ∈ s, r < 65536 := fun r hr => by have := h r hr; unfold Bmp at this; omega
    simp only [hs, if_false, List.flatten_cons, List.flatten_nil, List.append_nil, List.length_singleton,
      List.singleton_append]
    have e1 : lit "/" = [47] := by decide
    have e2 : lit " <FEFF" = 32 :: 60 :: lit "FEFF" := by decide
    have e3 : lit ">\n" = [62, 10] := by decide
    rw [e1, e2, e3]
    simp only [List.append_assoc, List.cons_append, List.nil_append]
    rw [infoFields]
    have tw : ∀ r : Bytes, (lit key ++ 32 :: r).takeWhile (fun b => b != 32) = lit key := by
      intro r
      rw [List.takeWhile_append_of_pos (by simpa using hkey)]; simp
    have dw : ∀ r : Bytes, (lit key ++ 32 :: r).dropWhile (fun b => b != 32) = 32 :: r := by
      intro r
      rw [List.dropWhile_append_of_pos (by simpa using hkey)]; simp
    have hgt : ∀ b ∈ lit "FEFF" ++ encodeUtf8 s, (b != 62) = true := by
      intro b hb
      rcases List.mem_append.1 hb with hb | hb
      · have : ∀ b ∈ lit "FEFF", (b != 62) = true := by decide
        exact this b hb
      · exact encode_no_gt s h16 b hb
    have tw2 : ∀ r : Bytes, (lit "FEFF" ++ (encodeUtf8 s ++ 62 :: r)).takeWhile (fun b => b != 62) = lit "FEFF" ++ encodeUtf8 s := by
      intro r
      rw [← List.append_assoc, List.takeWhile_append_of_pos (by simpa using hgt)]; simp
    have dw2 : ∀ r : Bytes, (lit "FEFF" ++ (encodeUtf8 s ++ 62 :: r)).dropWhile (fun b => b != 62) = 62 :: r := by
      intro r
      rw [← List.append_assoc, List.dropWhile_append_of_pos (by simpa using hgt)]; simp
    simp only [tw, dw, dropPrefix?, if_true, tw2, dw2, textOfHex_encode s h]


/-- What follows the text entries. -/
def infoTail (i : PdfInfo) : Bytes :=
  ((match i.creationDate with
      | some d => [lit "/CreationDate(D:" ++ d ++ lit ")\n"]
      | none => []) ++ [lit " >>\n"]).flatten

theorem infoFields_tail (i : PdfInfo) (hd : ∀ d ∈ i.creationDate, (32 : UInt8) ∉ d) (n : Nat) :
    infoFields n (infoTail i) = [] := by
  unfold infoTail
  cases n with
  | zero => rfl
  | succ n =>
    have e : lit " >>\n" = [32, 62, 62, 10] := by decide
    cases hc : i.creationDate with
    | none => simp [infoFields, e]
    | some d =>
      have hd := hd d (by simp [hc])
      have e1 : lit "/CreationDate(D:" = 47 :: lit "CreationDate(D:" := by decide
      have e2 : ∀ b ∈ lit "CreationDate(D:", b ≠ 32 := by decide
      have e3 : ∀ b ∈ lit ")\n", b ≠ 32 := by decide
      have hall : ∀ b ∈ lit "CreationDate(D:" ++ (d ++ lit ")\n"), (b != 32) = true := by
        intro b hb
        simp only [List.mem_append] at hb
        have : b ≠ 32 := by
          rcases hb with hb | hb | hb
          · exact e2 b hb
          · intro h; subst h; exact hd hb
          · exact e3 b hb
        simp [this]
      simp only [List.flatten_cons, List.flatten_nil, List.append_nil, List.nil_append, e1,
        List.cons_append, List.append_assoc, infoFields, e]
      have : (lit "CreationDate(D:" ++ (d ++ (lit ")\n" ++ [32, 62, 62, 10]))).dropWhile (fun b => b != 32)
          = [32, 62, 62, 10] := by
        have := List.dropWhile_append_of_pos (p := fun b : UInt8 => b != 32) (l₂ := [32, 62, 62, 10]) hall
        simp only [List.append_assoc] at this
        rw [this]; simp
      rw [this]; simp [dropPrefix?]

end Verif.Info
