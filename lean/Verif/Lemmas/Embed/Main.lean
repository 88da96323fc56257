import Verif.Lemmas.Embed.Embedded
namespace Verif.Embed
open Verif.TTF Verif.CmapSpec Verif.FontFile

theorem makeGlyfLoca_spec {f : Font} {vals : List Nat} {glyf : Bytes} {loca : List Nat}
    (h : makeGlyfLoca f vals = .ok (glyf, loca)) :
    ∃ (arr : List Nat) (b : Bytes) (k : Nat), closure f vals = .ok arr ∧ glyf = b ++ List.replicate k 0 ∧
      glyf.length % 4 = 0 ∧
      loca.length = f.nGlyphs + 1 ∧ loca[0]? = some 0 ∧ loca[f.nGlyphs]? = some b.length ∧
      ∀ k < f.nGlyphs, ∃ x y, loca[k]? = some x ∧ loca[k + 1]? = some y ∧ x ≤ y ∧ y ≤ b.length ∧
        (k ∈ arr → glyphData f k = .ok ((b.drop x).take (y - x))) ∧ (k ∉ arr → x = y) := by
  unfold makeGlyfLoca at h
  simp only [bind_ok] at h
  obtain ⟨arr, ha, size, hs, h⟩ := h
  split at h
  · simp only [bind_ok, throw_ne, false_and, exists_false] at h
  simp only [bind_ok] at h
  obtain ⟨⟨b, l⟩, hl, h⟩ := h
  simp only at h
  split at h
  · simp only [bind_ok, throw_ne, false_and, exists_false] at h
  next hle =>
  simp only [pure_ok, Prod.mk.injEq] at h
  obtain ⟨rfl, rfl⟩ := h
  obtain ⟨hs1, hs2⟩ := distinct_sort arr
  obtain ⟨i1, i2, i3, i4, i5⟩ := glyfLoop_spec f _ _ _ _ _ _ _ hs1 (by simp) (by simp) hl
  refine ⟨arr, b, _, ha, rfl, ?_, i1, by simpa using i2, i3, ?_⟩
  · simp only [List.length_append, List.length_replicate]; omega
  · intro k hk
    obtain ⟨x, y, j1, j2, j3, j4, j5, j6⟩ := i5 k hk
    rw [Nat.zero_add] at j5 j6
    exact ⟨x, y, j1, j2, j3, j4, fun hm => j5 ((hs2 k).2 hm), fun hm => j6 (fun hc => hm ((hs2 k).1 hc))⟩

/-- Size of copied glyph data. -/
theorem glyphData_len {f : Font} {g : Nat} {o : Bytes} (h : glyphData f g = .ok o) :
    ∃ a b, f.loca[g]? = some a ∧ f.loca[g + 1]? = some b ∧ o.length = b - a ∧
      (a ≤ b → (a < b → glyfBase f + b ≤ f.data.length) ∧ o = (f.data.drop (glyfBase f + a)).take (b - a)) := by
  unfold glyphData at h
  simp only [bind_ok] at h
  obtain ⟨s, hs, t, ht, h⟩ := h
  obtain ⟨a, ha, rfl⟩ := glyphOffset_ok hs
  obtain ⟨b, hb, rfl⟩ := glyphOffset_ok ht
  refine ⟨a, b, ha, hb, ?_⟩
  split at h
  · rw [pure_ok] at h
    subst h
    have : b - a = 0 := by omega
    simp [this]; omega
  · have hB := slice_ok h
    have e : glyfBase f + b - (glyfBase f + a) = b - a := by omega
    rw [e] at hB
    refine ⟨(BytesAt_len hB), fun _ => ⟨fun _ => ?_, hB.2⟩⟩
    have := hB.1; omega

/-- Entries of the new loca table stay below those of the old one, and keep their parity. -/
theorem loca_bound {f : Font} {loca : List Nat} {b : Bytes} {arr : List Nat} (h0 : loca[0]? = some 0)
    (hk : ∀ k < f.nGlyphs, ∃ x y, loca[k]? = some x ∧ loca[k + 1]? = some y ∧ x ≤ y ∧ y ≤ b.length ∧
        (k ∈ arr → glyphData f k = .ok ((b.drop x).take (y - x))) ∧ (k ∉ arr → x = y))
    (hex : ∀ g ≤ f.nGlyphs, ∃ a, f.loca[g]? = some a)
    (hmono : ∀ g a b, f.loca[g]? = some a → f.loca[g + 1]? = some b → a ≤ b) :
    ∀ k ≤ f.nGlyphs, ∃ x a, loca[k]? = some x ∧ f.loca[k]? = some a ∧ x ≤ a ∧
      ((∀ (g : Nat) c, f.loca[g]? = some c → c % 2 = 0) → x % 2 = 0) := by
  intro k
  induction k with
  | zero => intro _; obtain ⟨a, ha⟩ := hex 0 (by omega); exact ⟨0, a, h0, ha, by omega, fun _ => rfl⟩
  | succ k ih =>
    intro hle
    obtain ⟨x, a, hx, ha, hxa, hev⟩ := ih (by omega)
    obtain ⟨x', y, hx', hy, hxy, hyb, hin, hout⟩ := hk k (by omega)
    rw [hx] at hx'; cases hx'
    obtain ⟨c, hc⟩ := hex (k + 1) hle
    have hac := hmono k a c ha hc
    refine ⟨y, c, hy, hc, ?_⟩
    by_cases hm : k ∈ arr
    · obtain ⟨a', c', ha', hc', hlen, -⟩ := glyphData_len (hin hm)
      rw [ha] at ha'; cases ha'
      rw [hc] at hc'; cases hc'
      rw [List.length_take, List.length_drop] at hlen
      refine ⟨by omega, fun hall => ?_⟩
      have := hall k a ha
      have := hall (k + 1) c hc
      have := hev hall
      omega
    · have := hout hm
      subst this
      exact ⟨by omega, hev⟩

/-! ### Reading numbers out of the encoded loca table -/

theorem flatMap_be16_drop (g : Nat → Nat) : ∀ (l : List Nat) (k x : Nat), l[k]? = some x →
    ∃ t, (l.flatMap (fun v => be16 (g v))).drop (2 * k) = be16 (g x) ++ t := by
  intro l
  induction l with
  | nil => intro k x h; simp at h
  | cons y l ih =>
    intro k x h
    cases k with
    | zero => simp at h; subst h; exact ⟨_, rfl⟩
    | succ k =>
      obtain ⟨t, ht⟩ := ih k x (by simpa using h)
      refine ⟨t, ?_⟩
      rw [← ht, show 2 * (k + 1) = 2 + 2 * k by omega, ← List.drop_drop]
      rfl

theorem flatMap_be32_drop : ∀ (l : List Nat) (k x : Nat), l[k]? = some x →
    ∃ t, (l.flatMap be32).drop (4 * k) = be32 x ++ t := by
  intro l
  induction l with
  | nil => intro k x h; simp at h
  | cons y l ih =>
    intro k x h
    cases k with
    | zero => simp at h; subst h; exact ⟨_, rfl⟩
    | succ k =>
      obtain ⟨t, ht⟩ := ih k x (by simpa using h)
      refine ⟨t, ?_⟩
      rw [← ht, show 4 * (k + 1) = 4 + 4 * k by omega, ← List.drop_drop]
      rfl

theorem drop_append_more {a b t : Bytes} {n : Nat} (h : a.drop n = b ++ t) (r : Bytes) (hb : b ≠ []) :
    (a ++ r).drop n = b ++ (t ++ r) := by
  have : n ≤ a.length := by
    rcases Nat.lt_or_ge a.length n with hlt | hge
    · rw [List.drop_eq_nil_of_le (by omega)] at h
      have := congrArg List.length h
      have : 0 < b.length := List.length_pos_iff.2 hb
      simp at *; omega
    · exact hge
  rw [List.drop_append_of_le_length this, h, List.append_assoc]

theorem BytesAt_drop {d bs : Bytes} {p n : Nat} (h : BytesAt d p n bs) : ∃ t, d.drop p = bs ++ t :=
  ⟨(d.drop p).drop n, by rw [h.2]; exact (List.take_append_drop _ _).symm⟩

theorem drop_drop_some {d bs b t : Bytes} {p n k : Nat} (h : BytesAt d p n bs) (hk : bs.drop k = b ++ t) (hb : b ≠ []) :
    ∃ r, d.drop (p + k) = b ++ r := by
  obtain ⟨s, hs⟩ := BytesAt_drop h
  refine ⟨t ++ s, ?_⟩
  rw [← List.drop_drop, hs, drop_append_more hk s hb]

theorem be16_ne (n : Nat) : be16 n ≠ [] := by simp [be16]
theorem be32_ne (n : Nat) : be32 n ≠ [] := by simp [be32]

/-! ### All tables of the embedded file -/

theorem flatMap_len (g : Nat → Bytes) (c : Nat) (hg : ∀ v, (g v).length = c) : ∀ l : List Nat, (l.flatMap g).length = l.length * c := by
  intro l
  induction l with
  | nil => simp
  | cons y l ih => simp only [List.flatMap_cons, List.length_append, ih, hg, List.length_cons]; rw [Nat.add_mul]; omega

theorem locaBytes_len (short : Bool) (loca : List Nat) :
    (locaBytes short loca).length = pad4 (loca.length * (if short then 2 else 4)) := by
  unfold locaBytes pad4
  cases short <;> simp only [Bool.false_eq_true, if_false, if_true, List.length_append, List.length_replicate]
  · rw [flatMap_len be32 4 (fun _ => rfl)]; omega
  · rw [flatMap_len (fun v => be16 (v / 2)) 2 (fun _ => rfl)]; omega

/-- Facts about every piece. -/
theorem piece_facts {d : Bytes} {f : Font} {glyf : Bytes} {loca : List Nat} {p : Piece} (hP : Parsed d f)
    (hg4 : glyf.length % 4 = 0)
    (h : tableData f glyf loca p.tag = .ok (p.data, p.sum, p.len)) :
    p.data.length = pad4 p.len ∧ p.sum < 2 ^ 32 ∧
    (p.tag = lit "glyf" → p.data = glyf ∧ p.len = glyf.length ∧ p.sum = wordSum glyf) ∧
    (p.tag = lit "loca" → p.data = locaBytes f.shortIndex loca ∧
      p.len = loca.length * (if f.shortIndex then 2 else 4) ∧ p.sum = wordSum p.data) ∧
    (p.tag ≠ lit "glyf" → p.tag ≠ lit "loca" →
      (∃ o, HasEntry d p.tag p.sum o p.len ∧ BytesAt d o (pad4 p.len) p.data) ∨
      ((∀ o l, ¬ HasTable d p.tag o l) ∧ p.len = 0 ∧ p.data = [] ∧ p.sum = 0)) := by
  unfold tableData at h
  split at h
  · next ht =>
    simp only [bind_ok, pure_ok, Prod.mk.injEq] at h
    obtain ⟨c, hc, dd, hdd, rfl, rfl, hlen⟩ := h
    have hc' := checkSum_ok hc
    have hlt := wordSum_lt glyf
    have e4 : (List.length glyf + 3) / 4 * 4 = List.length glyf := by omega
    have hB := slice_ok hdd
    rw [e4] at hB
    have hdd' : p.data = glyf := by rw [hB.2]; simp
    refine ⟨by rw [(BytesAt_len hB), ← hlen, pad4]; omega, by omega, fun _ => ⟨hdd', hlen.symm, by omega⟩, ?_, ?_⟩
    · intro hl; rw [ht] at hl; exact absurd hl (by decide)
    · intro hn; exact absurd ht hn
  · split at h
    · next hng ht =>
      simp only [bind_ok, pure_ok, Prod.mk.injEq] at h
      obtain ⟨c, hc, hdd, rfl, hlen⟩ := h
      have hc' := checkSum_ok hc
      have hlt := wordSum_lt (locaBytes f.shortIndex loca)
      refine ⟨by rw [← hdd, ← hlen, locaBytes_len], by omega, fun hn => absurd hn hng, fun _ => ⟨hdd.symm, hlen.symm, by rw [← hdd]; omega⟩, fun _ hn => absurd ht hn⟩
    · next hng hnl =>
      simp only [bind_ok, pure_ok, Prod.mk.injEq] at h
      obtain ⟨dd, hdd, rfl, hs, hlen⟩ := h
      have hB := slice_ok hdd
      rw [hP.data] at hB
      cases ht : tableOf f.tables p.tag with
      | some t =>
        rw [ht] at hB hs hlen
        simp only [Option.getD_some, Table.padded] at hB hs hlen
        have hE := (hP.table _ _).1 ht
        rw [hs, hlen] at hE; rw [hlen] at hB
        obtain ⟨_, _, _, _, _, hs32, _⟩ := id hE
        exact ⟨(BytesAt_len hB), U32_lt hs32, fun hn => absurd hn hng, fun hn => absurd hn hnl, fun _ _ => .inl ⟨t.offset, hE, hB⟩⟩
      | none =>
        rw [ht] at hB hs hlen
        simp only [Option.getD_none, Table.padded] at hB hs hlen
        have h0 : p.data = [] := List.length_eq_zero_iff.1 (BytesAt_len hB)
        refine ⟨by rw [h0, ← hlen]; rfl, by omega, fun hn => absurd hn hng, fun hn => absurd hn hnl, fun _ _ => .inr ⟨?_, hlen.symm, h0, hs.symm⟩⟩
        rintro o l ⟨n, i, h1, h2, h3, h5, h6⟩
        obtain ⟨s, hs'⟩ : ∃ s, U32 d (12 + 16 * i + 4) s := by
          obtain ⟨x, y, ⟨a, b, ha, hb, -⟩, -, -⟩ := h5
          obtain ⟨b0, hb0, -⟩ := ha
          have hlt8 := (List.getElem?_eq_some_iff.1 hb0).1
          have mk : ∀ q, q < d.length → ∃ v, byte d q v := fun q hq => ⟨_, d[q], List.getElem?_eq_getElem hq, rfl⟩
          obtain ⟨v0, k0⟩ := mk (12 + 16 * i + 4) (by omega)
          obtain ⟨v1, k1⟩ := mk (12 + 16 * i + 5) (by omega)
          obtain ⟨v2, k2⟩ := mk (12 + 16 * i + 6) (by omega)
          obtain ⟨v3, k3⟩ := mk (12 + 16 * i + 7) (by omega)
          exact ⟨_, _, _, ⟨_, _, k0, k1, rfl⟩, ⟨_, _, k2, k3, rfl⟩, rfl⟩
        have := (hP.table p.tag ⟨s, o, l⟩).2 ⟨n, i, h1, h2, h3, hs', h5, h6⟩
        rw [ht] at this; cases this

end Verif.Embed
