import Verif.Props.Cmap
/-
The list of characters of a font (`TTFParser.Chars`, property C26).
-/
namespace Verif.Props
open Verif.TTF Verif.CmapSpec

/-- Segments that do not overlap, in ascending order, as OpenType requires: a segment starts after the end of every segment
before it. -/
def Ordered4 (d : Bytes) (b sc : Nat) : Prop :=
  ∀ i j e s, i < j → j < sc → EndCode d b i e → StartCode d b sc j s → e < s

/-- The glyph a segment gives a code: `pos` is where the glyph of the segment's first code `c` is read. -/
def SegGlyph (d : Bytes) (ro dl pos c r g : Nat) : Prop :=
  (ro = 0 ∧ g = (r + dl) % 65536) ∨ (ro ≠ 0 ∧ ∃ x, U16 d (pos + 2 * (r - c)) x ∧ g = if x = 0 then 0 else (x + dl) % 65536)

theorem segChars_ok {d : Bytes} {ro dl : Nat} (hdl : dl < 65536) : ∀ (n pos c : Nat) (l : List (Nat × Nat)), c + n ≤ 65536 →
    segChars d ro dl pos c n = .ok l → ∀ r g, (r, g) ∈ l ↔ c ≤ r ∧ r < c + n ∧ r ≠ 0xFFFF ∧ g ≠ 0 ∧ SegGlyph d ro dl pos c r g := by
  intro n
  induction n with
  | zero => intro pos c l _ h r g; simp [segChars] at h; subst h; simp; omega
  | succ n ih =>
    intro pos c l hle h r g
    rw [segChars] at h
    by_cases hc : c = 0xFFFF
    · rw [if_pos hc] at h; simp at h; subst h; simp; omega
    · rw [if_neg hc] at h
      have hsplit : ∃ g0, (ro = 0 ∧ g0 = c + dl ∨ ro ≠ 0 ∧ ∃ x, u16 d pos = .ok x ∧ g0 = if x > 0 then x + dl else x) ∧
          ∃ rest, segChars d ro dl (pos + 2) (c + 1) n = .ok rest ∧
            (if (if g0 ≥ 65536 then g0 - 65536 else g0) > 0 then (c, if g0 ≥ 65536 then g0 - 65536 else g0) :: rest else rest) = l := by
        by_cases hro : ro = 0
        · simp only [hro, gt_iff_lt, Nat.lt_irrefl, if_false, bind_ok, pure_ok] at h
          obtain ⟨g0, rfl, rest, h1, h2⟩ := h
          exact ⟨_, .inl ⟨hro, rfl⟩, rest, by rw [hro]; exact h1, h2⟩
        · have hpos : ro > 0 := by omega
          simp only [hpos, if_true, bind_ok, pure_ok] at h
          obtain ⟨x, hx, _, rfl, rest, h1, h2⟩ := h
          exact ⟨_, .inr ⟨hro, x, hx, rfl⟩, rest, h1, h2⟩
      obtain ⟨g0, hg0, rest, hrest, hl⟩ := hsplit
      have IH := ih (pos + 2) (c + 1) rest (by omega) hrest r g
      have hhead : ∀ g, ((if g0 ≥ 65536 then g0 - 65536 else g0) = g) ↔ SegGlyph d ro dl pos c c g := by
        intro g
        unfold SegGlyph
        by_cases hro : ro = 0
        · obtain rfl : g0 = c + dl := by
            rcases hg0 with ⟨_, h⟩ | ⟨h, _⟩
            · exact h
            · exact absurd hro h
          have : (if c + dl ≥ 65536 then c + dl - 65536 else c + dl) = (c + dl) % 65536 := by split <;> omega
          rw [this]
          constructor
          · intro h; exact .inl ⟨hro, h.symm⟩
          · rintro (⟨_, h⟩ | ⟨h, _⟩)
            · exact h.symm
            · exact absurd hro h
        · obtain ⟨x, hx, rfl⟩ : ∃ x, u16 d pos = .ok x ∧ g0 = if x > 0 then x + dl else x := by
            rcases hg0 with ⟨h, _⟩ | ⟨_, h⟩
            · exact absurd h hro
            · exact h
          have hx := u16_ok.1 hx
          have hlt := U16_lt hx
          have : (if (if x > 0 then x + dl else x) ≥ 65536 then (if x > 0 then x + dl else x) - 65536 else (if x > 0 then x + dl else x)) =
              if x = 0 then 0 else (x + dl) % 65536 := by
            by_cases h0 : x = 0
            · subst h0; simp
            · have hx0 : x > 0 := by omega
              simp only [hx0, if_true, h0, if_false]; split <;> omega
          rw [this]
          constructor
          · intro h; exact .inr ⟨hro, x, by simpa using hx, h.symm⟩
          · rintro (⟨h, _⟩ | ⟨_, y, hy, h⟩)
            · exact absurd h hro
            · rw [Nat.sub_self, Nat.mul_zero, Nat.add_zero] at hy
              rw [U16_fun hy hx] at h; exact h.symm
      have hstep : c + 1 ≤ r → (SegGlyph d ro dl (pos + 2) (c + 1) r g ↔ SegGlyph d ro dl pos c r g) := by
        intro h
        unfold SegGlyph
        rw [show pos + 2 + 2 * (r - (c + 1)) = pos + 2 * (r - c) by omega]
      generalize (if g0 ≥ 65536 then g0 - 65536 else g0) = g1 at *
      by_cases hr : r = c
      · subst hr
        have hnot : (r, g) ∉ rest := fun hm => by have := (IH.1 hm).1; omega
        constructor
        · intro hm
          rw [← hl] at hm
          split at hm
          · rcases List.mem_cons.1 hm with h | h
            · cases h; exact ⟨Nat.le_refl _, by omega, hc, by omega, (hhead g).1 rfl⟩
            · exact absurd h hnot
          · exact absurd hm hnot
        · rintro ⟨_, _, _, h0, h⟩
          have := (hhead g).2 h
          subst this
          rw [← hl, if_pos (by omega)]
          simp
      · have : (r, g) ∈ l ↔ (r, g) ∈ rest := by
          rw [← hl]
          split
          · rw [List.mem_cons]
            constructor
            · rintro (h | h)
              · cases h; exact absurd rfl hr
              · exact h
            · exact .inr
          · exact Iff.rfl
        rw [this, IH]
        constructor
        · rintro ⟨h1, h2, h3, h4, h5⟩; exact ⟨by omega, by omega, h3, h4, (hstep h1).1 h5⟩
        · rintro ⟨h1, h2, h3, h4, h5⟩; exact ⟨by omega, by omega, h3, h4, (hstep (by omega)).2 h5⟩

theorem allChars_ok {d : Bytes} {roff : Nat} : ∀ (l : List (Nat × Nat × Nat × Nat)) (i : Nat) (out : List (Nat × Nat)),
    (∀ x ∈ l, x.1 ≤ 0xFFFF ∧ x.2.1 ≤ 0xFFFF ∧ x.2.2.1 < 65536) → allChars d roff i l = .ok out →
    ∀ r g, (r, g) ∈ out ↔ ∃ k c1 c2 dl ro, l[k]? = some (c1, c2, dl, ro) ∧ c1 ≤ r ∧ r ≤ c2 ∧ r ≠ 0xFFFF ∧ g ≠ 0 ∧
      SegGlyph d ro dl (roff + 2 * (i + k) + ro) c1 r g := by
  intro l
  induction l with
  | nil => intro i out _ h r g; simp [allChars] at h; subst h; simp
  | cons x l ih =>
    obtain ⟨c1, c2, dl, ro⟩ := x
    intro i out hb h r g
    simp only [allChars, bind_ok, pure_ok] at h
    obtain ⟨here, hh, more, hm, rfl⟩ := h
    obtain ⟨b1, b2, b3⟩ := hb _ (List.mem_cons_self ..)
    have H := segChars_ok b3 _ _ _ here (by simp only at *; omega) hh r g
    have IH := ih (i + 1) more (fun x hx => hb x (by simp [hx])) hm r g
    rw [List.mem_append, H, IH]
    constructor
    · rintro (⟨h1, h2, h3, h4, h5⟩ | ⟨k, a1, a2, a3, a4, hk, h1, h2, h3, h4, h5⟩)
      · exact ⟨0, c1, c2, dl, ro, rfl, h1, by omega, h3, h4, h5⟩
      · exact ⟨k + 1, a1, a2, a3, a4, by simpa using hk, h1, h2, h3, h4, by rwa [show i + (k + 1) = i + 1 + k by omega]⟩
    · rintro ⟨k, a1, a2, a3, a4, hk, h1, h2, h3, h4, h5⟩
      cases k with
      | zero =>
        simp only [List.getElem?_cons_zero, Option.some.injEq, Prod.mk.injEq] at hk
        obtain ⟨rfl, rfl, rfl, rfl⟩ := hk
        exact .inl ⟨h1, by omega, h3, h4, h5⟩
      | succ k =>
        exact .inr ⟨k, a1, a2, a3, a4, by simpa using hk, h1, h2, h3, h4, by rwa [show i + 1 + k = i + (k + 1) by omega]⟩

/-- **C26** The characters listed for a font (`Chars`) are exactly those to which the font file's own format 4 subtable gives a
glyph other than 0, each with that glyph; 0xFFFF, which ends the table, is never listed.  For every font file whose cmap table is
accepted and whose segments are in order. -/
theorem chars_agree {d : Bytes} {cm : Nat} {c : Cmap} (h : parseCmapAt d cm = .ok c) :
    ∃ off sc, HasRecord d cm 3 1 off ∧ IsFormat4 d (cm + off) sc ∧
      (Ordered4 d (cm + off) sc → ∀ r g, (r, g) ∈ c.chars ↔ r ≠ 0xFFFF ∧ g ≠ 0 ∧ Maps4 d (cm + off) sc r g) := by
  unfold parseCmapAt at h
  simp only [bind_ok] at h
  obtain ⟨n, hn, off, hoff, h⟩ := h
  by_cases h0 : off = 0
  · simp only [h0, if_true, bind_ok, throw_ne, false_and, exists_false] at h
  rw [if_neg h0] at h
  simp only [bind_ok, pure_ok] at h
  obtain ⟨c4, h4, ch, hch, c12, h12, rfl⟩ := h
  obtain ⟨i, hi, a, b, e⟩ := (offset31_ok hoff).resolve_left h0
  have P := parseCmap4_ok h4
  refine ⟨off, c4.segCount, ⟨n, i, u16_ok.1 hn, hi, a, b, e⟩, P.fmt, ?_⟩
  intro hord r g
  have seg : ∀ k c1 c2 dl ro, (c4.startCount.zip (c4.endCount.zip (c4.idDelta.zip c4.idRangeOffset)))[k]? = some (c1, c2, dl, ro) ↔
      k < c4.segCount ∧ StartCode d (cm + off) c4.segCount k c1 ∧ EndCode d (cm + off) k c2 ∧ Delta d (cm + off) c4.segCount k dl ∧
        RangeOffset d (cm + off) c4.segCount k ro := by
    intro k c1 c2 dl ro
    simp only [List.getElem?_zip_eq_some]
    constructor
    · rintro ⟨s1, e1, d1, r1⟩
      have hk : k < c4.segCount := by rw [← P.stLen]; exact (List.getElem?_eq_some_iff.1 s1).1
      obtain ⟨x1, p1, q1⟩ := P.st k hk
      obtain ⟨x2, p2, q2⟩ := P.ec k hk
      obtain ⟨x3, p3, q3⟩ := P.dl k hk
      obtain ⟨x4, p4, q4⟩ := P.ro k hk
      rw [s1] at p1; rw [e1] at p2; rw [d1] at p3; rw [r1] at p4
      cases p1; cases p2; cases p3; cases p4
      exact ⟨hk, q1, q2, q3, q4⟩
    · rintro ⟨hk, q1, q2, q3, q4⟩
      obtain ⟨x1, p1, q1'⟩ := P.st k hk
      obtain ⟨x2, p2, q2'⟩ := P.ec k hk
      obtain ⟨x3, p3, q3'⟩ := P.dl k hk
      obtain ⟨x4, p4, q4'⟩ := P.ro k hk
      rw [U16_fun q1 q1', U16_fun q2 q2', U16_fun q3 q3', U16_fun q4 q4']
      exact ⟨p1, p2, p3, p4⟩
  rw [allChars_ok _ 0 ch ?_ hch]
  · constructor
    · rintro ⟨k, c1, c2, dl, ro, hk, h1, h2, h3, h4, h5⟩
      obtain ⟨hlt, q1, q2, q3, q4⟩ := (seg _ _ _ _ _).1 hk
      refine ⟨h3, h4, k, c1, dl, ro, ⟨hlt, ⟨c2, q2, h2⟩, ?_⟩, q1, q3, q4, h1, ?_⟩
      · intro j hj
        obtain ⟨x, _, hx⟩ := P.ec j (by omega)
        exact ⟨x, hx, by have := hord j k x c1 hj hlt hx q1; omega⟩
      · unfold SegGlyph at h5
        rw [Nat.zero_add, show cm + off + 16 + 6 * c4.segCount + 2 * k = rangeAddr (cm + off) c4.segCount k from rfl] at h5
        exact h5
    · rintro ⟨h3, h4, k, c1, dl, ro, ⟨hlt, ⟨c2, q2, h2⟩, _⟩, q1, q3, q4, h1, h5⟩
      refine ⟨k, c1, c2, dl, ro, (seg _ _ _ _ _).2 ⟨hlt, q1, q2, q3, q4⟩, h1, h2, h3, h4, ?_⟩
      unfold SegGlyph
      rw [Nat.zero_add, show cm + off + 16 + 6 * c4.segCount + 2 * k = rangeAddr (cm + off) c4.segCount k from rfl]
      exact h5
  · intro x hx
    obtain ⟨k, hk, hke⟩ := List.getElem_of_mem hx
    obtain ⟨c1, c2, dl, ro⟩ := x
    obtain ⟨hlt, q1, q2, q3, q4⟩ := (seg k c1 c2 dl ro).1 (by rw [List.getElem?_eq_getElem hk, hke])
    have := U16_lt q1
    have := U16_lt q2
    have := U16_lt q3
    refine ⟨?_, ?_, ?_⟩ <;> simp only <;> omega

/-- The segments of the demonstration table are in order. -/
example : Ordered4 demoCmap 20 2 := by
  intro i j e s hij hj he hs
  obtain rfl : i = 0 := by omega
  obtain rfl : j = 1 := by omega
  have he := u16_ok.2 he; have hs := u16_ok.2 hs
  rw [show u16 demoCmap (20 + 14 + 2 * 0) = .ok 67 by decide +kernel] at he; cases he
  rw [show u16 demoCmap (20 + 16 + 2 * 2 + 2 * 1) = .ok 65535 by decide +kernel] at hs; cases hs
  decide

end Verif.Props
