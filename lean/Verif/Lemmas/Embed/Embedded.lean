import Verif.Lemmas.Embed.Source
/-
The embedded font file as a font file.
-/
namespace Verif.Embed
open Verif.TTF Verif.CmapSpec Verif.FontFile

theorem U32_lt {d : Bytes} {p n : Nat} (h : U32 d p n) : n < 2 ^ 32 := by
  obtain ⟨a, b, ha, hb, rfl⟩ := h
  have := U16_lt ha; have := U16_lt hb; omega

theorem byte_copy {d e bs : Bytes} {o o' l k n : Nat} (h : BytesAt d o l bs) (h' : BytesAt e o' l bs) (hk : k < l)
    (hb : byte d (o + k) n) : byte e (o' + k) n := by
  obtain ⟨b, hb, rfl⟩ := hb
  refine ⟨b, ?_, rfl⟩
  have h1 : bs[k]? = some b := by
    rw [h.2, List.getElem?_take_of_lt hk, List.getElem?_drop, hb]
  rw [h'.2, List.getElem?_take_of_lt hk, List.getElem?_drop] at h1
  exact h1

theorem U16_copy {d e bs : Bytes} {o o' l k n : Nat} (h : BytesAt d o l bs) (h' : BytesAt e o' l bs) (hk : k + 2 ≤ l)
    (hn : U16 d (o + k) n) : U16 e (o' + k) n := by
  obtain ⟨a, b, ha, hb, rfl⟩ := hn
  exact ⟨a, b, byte_copy h h' (by omega) ha, byte_copy (k := k + 1) h h' (by omega) hb, rfl⟩

theorem BytesAt_sub {d bs : Bytes} {p n k m : Nat} (h : BytesAt d p n bs) (hk : k + m ≤ n) :
    BytesAt d (p + k) m ((bs.drop k).take m) := by
  refine ⟨by have := h.1; omega, ?_⟩
  rw [h.2, List.drop_take, List.drop_drop, List.take_take, Nat.min_eq_left (by omega)]

theorem BytesAt_fun {d bs bs' : Bytes} {p n : Nat} (h : BytesAt d p n bs) (h' : BytesAt d p n bs') : bs = bs' := by
  rw [h.2, h'.2]

theorem slice_ok {d : Bytes} {o n : Nat} {bs : Bytes} (h : slice d o n = .ok bs) : BytesAt d o n bs := by
  unfold slice at h
  split at h
  · next hle => cases h; exact ⟨hle, rfl⟩
  · cases h

theorem BytesAt_len {d bs : Bytes} {p n : Nat} (h : BytesAt d p n bs) : bs.length = n := by
  have := h.1
  rw [h.2, List.length_take, List.length_drop]; omega

/-! ### Checksums -/

theorem byteSums_ok : ∀ (d : Bytes) (s t : Nat × Nat × Nat × Nat), byteSums d s = .ok t →
    (t.1 * 2 ^ 24 + t.2.1 * 2 ^ 16 + t.2.2.1 * 2 ^ 8 + t.2.2.2) % 2 ^ 32 =
      (s.1 * 2 ^ 24 + s.2.1 * 2 ^ 16 + s.2.2.1 * 2 ^ 8 + s.2.2.2 + wordSum d) % 2 ^ 32
  | [], s, t, h => by simp only [byteSums, Except.ok.injEq] at h; subst h; simp [wordSum]
  | [_], _, _, h => by simp [byteSums] at h
  | [_, _], _, _, h => by simp [byteSums] at h
  | [_, _, _], _, _, h => by simp [byteSums] at h
  | a :: b :: c :: d :: rest, (s3, s2, s1, s0), t, h => by
    simp only [byteSums] at h
    have := byteSums_ok rest _ t h
    refine this.trans ?_
    have e : wordSum (a :: b :: c :: d :: rest) =
      (((a.toNat * 256 + b.toNat) * 256 + c.toNat) * 256 + d.toNat + wordSum rest) % 2 ^ 32 := rfl
    rw [e]
    generalize wordSum rest = w
    generalize a.toNat = a, b.toNat = b, c.toNat = c, d.toNat = d
    rw [Nat.add_mod_mod]
    refine congrArg (· % 2 ^ 32) ?_
    clear this h e
    simp only [Nat.reducePow]
    omega

theorem checkSum_ok {d : Bytes} {c : Nat} (h : checkSum d = .ok c) : c = wordSum d % 2 ^ 32 := by
  unfold checkSum at h
  simp only [bind_ok, pure_ok] at h
  obtain ⟨⟨s3, s2, s1, s0⟩, hs, rfl⟩ := h
  have := byteSums_ok _ _ _ hs
  simp only at this ⊢
  omega

theorem wordSum_lt : ∀ d : Bytes, wordSum d < 2 ^ 32
  | [] => by simp [wordSum]
  | [_] => by simp [wordSum]
  | [_, _] => by simp [wordSum]
  | [_, _, _] => by simp [wordSum]
  | a :: b :: c :: d :: rest => by simp only [wordSum]; exact Nat.mod_lt _ (by decide)

/-! ### The file -/

/-- The data of a piece in the file. -/
theorem piece_bytes {H : Bytes} {ps : List Piece} {e : Bytes} (h12 : H.length = 12) (hlen : ps.length = 9)
    (ht : ∀ p ∈ ps, p.tag.length = 4)
    (he : e = H ++ records 156 ps ++ (ps.map (·.data)).flatten) {i : Nat} {p : Piece} (hi : ps[i]? = some p) :
    BytesAt e (pieceOffset 156 ps i) p.data.length p.data ∧
      pieceOffset 156 ps i + p.data.length = pieceOffset 156 ps (i + 1) := by
  obtain ⟨tail, htail⟩ := data_get i p hi
  have hl : (H ++ records 156 ps).length = 156 := by
    rw [List.length_append, h12, records_length ht, hlen]
  have hdrop : e.drop (pieceOffset 156 ps i) = p.data ++ tail := by
    rw [he, pieceOffset, ← List.drop_drop]
    have := List.drop_left (l₁ := H ++ records 156 ps) (l₂ := (ps.map (·.data)).flatten)
    rw [hl] at this
    rw [this, htail]
  have hle : pieceOffset 156 ps i ≤ e.length := by
    rw [he, List.length_append, hl, pieceOffset]
    have : ((ps.take i).map (·.data)).flatten.length ≤ ((ps.map (·.data)).flatten).length := by
      conv => rhs; rw [← List.take_append_drop i ps, List.map_append, List.flatten_append, List.length_append]
      exact Nat.le_add_right _ _
    omega
  refine ⟨⟨?_, ?_⟩, ?_⟩
  · have := congrArg List.length hdrop
    simp only [List.length_drop, List.length_append] at this
    omega
  · rw [hdrop]; simp
  · have hilt : i < ps.length := (List.getElem?_eq_some_iff.1 hi).1
    have hg : ps[i] = p := (List.getElem?_eq_some_iff.1 hi).2
    simp only [pieceOffset]
    rw [List.take_succ_eq_append_getElem hilt, hg]
    simp [Nat.add_assoc]

theorem piece_entry {H : Bytes} {ps : List Piece} {e : Bytes} (h12 : H.length = 12)
    (ht : ∀ p ∈ ps, p.tag.length = 4) (hlen : ps.length = 9)
    (he : e = H ++ records 156 ps ++ (ps.map (·.data)).flatten) (hlt : e.length < 2 ^ 32)
    {i : Nat} {p : Piece} (hi : ps[i]? = some p) (hs : p.sum < 2 ^ 32) (hln : p.len < 2 ^ 32) :
    EntryNo e i p.tag p.sum (pieceOffset 156 ps i) p.len := by
  have hb := (piece_bytes h12 hlen ht he hi).1.1
  obtain ⟨tail, htail⟩ := records_get ht 156 i p ((ps.map (·.data)).flatten) hi
  have hd : e.drop (12 + 16 * i) = p.record (pieceOffset 156 ps i) ++ tail := by
    rw [he, List.append_assoc, ← List.drop_drop]
    have := List.drop_left (l₁ := H) (l₂ := records 156 ps ++ (ps.map (·.data)).flatten)
    rw [h12] at this
    rw [this, htail]
  have htag : p.tag.length = 4 := ht p (List.mem_of_getElem? hi)
  unfold Piece.record at hd
  have d4 : e.drop (12 + 16 * i + 4) = be32 p.sum ++ (be32 (pieceOffset 156 ps i) ++ (be32 p.len ++ tail)) := by
    rw [← List.drop_drop, hd, ← htag]; simp [List.append_assoc]
  have d8 : e.drop (12 + 16 * i + 8) = be32 (pieceOffset 156 ps i) ++ (be32 p.len ++ tail) := by
    rw [show 12 + 16 * i + 8 = 12 + 16 * i + 4 + 4 by omega, ← List.drop_drop, d4]; rfl
  have d12 : e.drop (12 + 16 * i + 12) = be32 p.len ++ tail := by
    rw [show 12 + 16 * i + 12 = 12 + 16 * i + 8 + 4 by omega, ← List.drop_drop, d8]; rfl
  refine ⟨?_, U32_of_drop d4 hs, U32_of_drop d8 (by omega), U32_of_drop d12 hln⟩
  rw [hd, ← htag]; simp [List.append_assoc]

end Verif.Embed
