import Verif.Lemmas.TTF
/-! C26: character code to glyph lookup. -/
namespace Verif.Props
open Verif.TTF Verif.CmapSpec

theorem offset31_ok {d : Bytes} : ∀ {k p acc off : Nat}, offset31 d p k acc = .ok off →
    off = acc ∨ ∃ i < k, U16 d (p + 8 * i) 3 ∧ U16 d (p + 8 * i + 2) 1 ∧ U32 d (p + 8 * i + 4) off := by
  intro k
  induction k with
  | zero => intro p acc off h; simp [offset31] at h; exact .inl h.symm
  | succ k ih =>
    intro p acc off h
    simp only [offset31, bind_ok] at h
    obtain ⟨pid, h1, eid, h2, o, h3, h⟩ := h
    rcases ih h with h' | ⟨i, hi, a, b, c⟩
    · by_cases hc : pid = 3 ∧ eid = 1
      · rw [if_pos hc] at h'
        obtain ⟨rfl, rfl⟩ := hc
        subst h'
        exact .inr ⟨0, by omega, u16_ok.1 h1, u16_ok.1 h2, u32_ok.1 h3⟩
      · rw [if_neg hc] at h'; exact .inl h'
    · refine .inr ⟨i + 1, by omega, ?_, ?_, ?_⟩
      · rwa [show p + 8 + 8 * i = p + 8 * (i + 1) by omega] at a
      · rwa [show p + 8 + 8 * i = p + 8 * (i + 1) by omega] at b
      · rwa [show p + 8 + 8 * i = p + 8 * (i + 1) by omega] at c

theorem offset310_ok {d : Bytes} : ∀ {k p : Nat} {r : Option Nat}, offset310 d p k = .ok r →
    (∀ off, r = some off → ∃ i < k, U16 d (p + 8 * i) 3 ∧ U16 d (p + 8 * i + 2) 10 ∧ U32 d (p + 8 * i + 4) off) ∧
    (r = none → ∀ i < k, ¬ (U16 d (p + 8 * i) 3 ∧ U16 d (p + 8 * i + 2) 10)) := by
  intro k
  induction k with
  | zero => intro p r h; simp [offset310] at h; subst h; simp
  | succ k ih =>
    intro p r h
    simp only [offset310, bind_ok, pure_ok] at h
    obtain ⟨pid, h1, eid, h2, o, h3, r', h4, rfl⟩ := h
    obtain ⟨ih1, ih2⟩ := ih h4
    constructor
    · intro off hoff
      by_cases hc : pid = 3 ∧ eid = 10
      · rw [if_pos hc] at hoff
        obtain ⟨rfl, rfl⟩ := hc
        simp at hoff
        subst hoff
        exact ⟨0, by omega, u16_ok.1 h1, u16_ok.1 h2, u32_ok.1 h3⟩
      · rw [if_neg hc] at hoff
        obtain ⟨i, hi, a, b, c⟩ := ih1 off hoff
        rw [show p + 8 + 8 * i = p + 8 * (i + 1) by omega] at a b c
        exact ⟨i + 1, by omega, a, b, c⟩
    · intro hn i hi
      by_cases hc : pid = 3 ∧ eid = 10
      · rw [if_pos hc] at hn; simp at hn
      · rw [if_neg hc] at hn
        cases i with
        | zero =>
          rintro ⟨a, b⟩
          exact hc ⟨U16_fun (u16_ok.1 h1) a, U16_fun (u16_ok.1 h2) b⟩
        | succ i =>
          have := ih2 hn i (by omega)
          rwa [show p + 8 + 8 * i = p + 8 * (i + 1) by omega] at this

theorem groups_ok {d : Bytes} : ∀ {k p : Nat} {l : List Group}, groups d p k = .ok l →
    l.length = k ∧ ∀ (i : Nat) g, l[i]? = some g →
      U32 d (p + 12 * i) g.start ∧ U32 d (p + 12 * i + 4) g.stop ∧ U32 d (p + 12 * i + 8) g.glyph := by
  intro k
  induction k with
  | zero => intro p l h; simp [groups] at h; subst h; simp
  | succ k ih =>
    intro p l h
    simp only [groups, bind_ok, pure_ok] at h
    obtain ⟨s, hs, e, he, g, hg, rest, hr, rfl⟩ := h
    obtain ⟨i1, i2⟩ := ih hr
    refine ⟨by simp [i1], ?_⟩
    intro i x hx
    cases i with
    | zero => simp at hx; subst hx; exact ⟨u32_ok.1 hs, u32_ok.1 he, u32_ok.1 hg⟩
    | succ i =>
      have := i2 i x (by simpa using hx)
      rwa [show p + 12 + 12 * i = p + 12 * (i + 1) by omega] at this

theorem lookup12_ok {l : List Group} {v g : Nat} (h : lookup12 l v = .ok g) :
    ∃ (i : Nat) (x : Group), l[i]? = some x ∧ x.start ≤ v ∧ v ≤ x.stop ∧ g = v - x.start + x.glyph := by
  induction l with
  | nil => simp [lookup12] at h
  | cons a l ih =>
    simp only [lookup12] at h
    split at h
    · next hc => simp at h; exact ⟨0, a, rfl, hc.1, hc.2, h.symm⟩
    · obtain ⟨i, x, h1, h2⟩ := ih h
      exact ⟨i + 1, x, by simpa using h1, h2⟩

theorem lookup12_error {l : List Group} {v : Nat} {e : Fault} (h : lookup12 l v = .error e) :
    e = .notFound ∧ ∀ x ∈ l, ¬ (x.start ≤ v ∧ v ≤ x.stop) := by
  induction l with
  | nil => simp [lookup12] at h; simp [h]
  | cons a l ih =>
    simp only [lookup12] at h
    split at h
    · simp at h
    · next hc =>
      obtain ⟨h1, h2⟩ := ih h
      exact ⟨h1, by simpa using ⟨fun hh => by omega, fun x hx hh => by have := h2 x hx; omega⟩⟩

/-- Format 4, all three outcomes at once. -/
theorem lookup4_cases {d : Bytes} {b : Nat} {c : Cmap4} (P : Parsed4 d b c) (v : Nat) :
    match lookup4 c v with
    | .ok g => (∀ i < c.segCount, ∀ ro, RangeOffset d b c.segCount i ro → ro % 2 = 0) → Maps4 d b c.segCount v g
    | .error .notFound => Unmapped4 d b c.segCount v
    | .error .err => False
    | .error .panic => ¬ (v ≤ 0xFFFF ∧ WellFormed4 d b c.segCount) := by
  have hspec := segIndex_spec (ec := c.endCount) (sc := c.segCount) (v := v) (Nat.le_refl _)
  have hseg := isSegment_of P v
  unfold lookup4
  generalize segIndex c.endCount c.segCount v c.segCount = seg at *
  by_cases hlt : seg < c.segCount
  · have hseg := hseg hlt
    obtain ⟨st, hst, hst'⟩ := P.st seg hlt
    obtain ⟨dl, hdl, hdl'⟩ := P.dl seg hlt
    obtain ⟨ro, hro, hro'⟩ := P.ro seg hlt
    simp only [hst, hdl, hro]
    by_cases hv : v < st
    · rw [if_pos hv]; exact ⟨seg, st, hseg, hst', hv⟩
    rw [if_neg hv]
    by_cases hr : ro = 0
    · rw [if_pos hr]
      intro _
      exact ⟨seg, st, dl, ro, hseg, hst', hdl', hro', by omega, .inl ⟨hr, rfl⟩⟩
    rw [if_neg hr]
    -- the only ways to panic contradict well-formedness
    have wf : ∀ len, U16 d (b + 2) len → WellFormed4 d b c.segCount →
        b + 16 + 8 * c.segCount ≤ rangeAddr b c.segCount seg + ro ∧
        rangeAddr b c.segCount seg + ro + 2 * (v - st) + 2 ≤ b + len := by
      intro len hlen W
      obtain ⟨e, he, hve⟩ := hseg.2.1
      have := W.inside seg hlt st e ro len hst' he hro' hlen hr (by omega)
      omega
    by_cases hu : ro / 2 + (v - st) < c.segCount - seg
    · rw [if_pos hu]
      rintro ⟨_, W⟩
      obtain ⟨len, hl⟩ := P.len
      have := wf len hl W
      have := W.even seg hlt ro hro'
      unfold rangeAddr at *
      omega
    rw [if_neg hu]
    cases hg : c.glyphIdArray[ro / 2 + (v - st) - (c.segCount - seg)]? with
    | none =>
      rintro ⟨_, W⟩
      obtain ⟨len, hl⟩ := P.len
      have h1 := wf len hl W
      have h2 := W.even seg hlt ro hro'
      have h3 := P.gaLen len hl (by unfold rangeAddr at *; omega)
      have h4 := List.getElem?_eq_none_iff.1 hg
      unfold rangeAddr at *
      omega
    | some g =>
      have hga := P.ga _ _ hg
      have key : (∀ i < c.segCount, ∀ ro, RangeOffset d b c.segCount i ro → ro % 2 = 0) →
          U16 d (rangeAddr b c.segCount seg + ro + 2 * (v - st)) g := by
        intro hev
        have := hev seg hlt ro hro'
        unfold rangeAddr
        rwa [show b + 16 + 8 * c.segCount + 2 * (ro / 2 + (v - st) - (c.segCount - seg))
          = b + 16 + 6 * c.segCount + 2 * seg + ro + 2 * (v - st) by omega] at hga
      cases g with
      | zero =>
        intro hev
        exact ⟨seg, st, dl, ro, hseg, hst', hdl', hro', by omega, .inr ⟨hr, 0, key hev, by simp⟩⟩
      | succ g =>
        intro hev
        exact ⟨seg, st, dl, ro, hseg, hst', hdl', hro', by omega, .inr ⟨hr, g + 1, key hev, by simp⟩⟩
  · have : c.startCount[seg]? = none := List.getElem?_eq_none_iff.2 (by rw [P.stLen]; omega)
    simp only [this]
    rintro ⟨hv, W⟩
    obtain ⟨i, hi, he⟩ := W.last
    obtain ⟨x, hx, he'⟩ := P.ec i hi
    have := hspec.2.2.2 i (by omega) (by omega)
    rw [getD_of_some hx] at this
    have := U16_fun he he'
    omega

/-- What parsing a cmap table establishes about the file. -/
theorem parseCmapAt_ok {d : Bytes} {cm : Nat} {c : Cmap} (h : parseCmapAt d cm = .ok c) :
    ∃ off, HasRecord d cm 3 1 off ∧ Parsed4 d (cm + off) c.f4 ∧ parseCmap12 d cm = .ok c.f12 := by
  unfold parseCmapAt at h
  simp only [bind_ok] at h
  obtain ⟨n, hn, off, hoff, h⟩ := h
  by_cases h0 : off = 0
  · simp only [h0, if_true, bind_ok, throw_ne, false_and, exists_false] at h
  rw [if_neg h0] at h
  simp only [bind_ok, pure_ok] at h
  obtain ⟨c4, h4, ch, hch, c12, h12, rfl⟩ := h
  rcases offset31_ok hoff with h' | ⟨i, hi, a, b, e⟩
  · exact absurd h' h0
  · exact ⟨off, ⟨n, i, u16_ok.1 hn, hi, a, b, e⟩, parseCmap4_ok h4, h12⟩

/-- **C26** For a code up to 0xFFFF the lookup answers what the font file's own format 4 subtable (of the Windows
Unicode encoding record) says: a glyph exactly as the OpenType rules compute it from the bytes, or "not found" when
the code lies before its segment; it never indexes out of range.  For every font file whose cmap table is accepted
and whose format 4 subtable is well formed. -/
theorem cmap_lookup_bmp {d : Bytes} {cm : Nat} {c : Cmap} (h : parseCmapAt d cm = .ok c) :
    ∃ off sc, HasRecord d cm 3 1 off ∧ IsFormat4 d (cm + off) sc ∧
      (WellFormed4 d (cm + off) sc → ∀ r ≤ 0xFFFF,
        (∃ g, glyphOf c r = .ok g ∧ Maps4 d (cm + off) sc r g) ∨
        (glyphOf c r = .error .notFound ∧ Unmapped4 d (cm + off) sc r)) := by
  obtain ⟨off, hrec, P, -⟩ := parseCmapAt_ok h
  refine ⟨off, c.f4.segCount, hrec, P.fmt, ?_⟩
  intro W r hr
  have := lookup4_cases P r
  have e : glyphOf c r = lookup4 c.f4 r := by simp [glyphOf, hr]
  rw [e]
  cases hl : lookup4 c.f4 r with
  | ok g => rw [hl] at this; exact .inl ⟨g, rfl, this W.even⟩
  | error f =>
    rw [hl] at this
    cases f with
    | err => exact this.elim
    | notFound => exact .inr ⟨rfl, this⟩
    | panic => exact (this ⟨hr, W⟩).elim

/-- The specification determines the answer: a code has at most one glyph. -/
theorem maps4_unique {d : Bytes} {b sc c g g' : Nat} (h : Maps4 d b sc c g) (h' : Maps4 d b sc c g') : g = g' := by
  obtain ⟨i, s, dl, ro, hi, hs, hd, hr, hle, hg⟩ := h
  obtain ⟨i', s', dl', ro', hi', hs', hd', hr', hle', hg'⟩ := h'
  obtain rfl := isSegment_fun hi hi'
  obtain rfl := U16_fun hs hs'
  obtain rfl := U16_fun hd hd'
  obtain rfl := U16_fun hr hr'
  rcases hg with ⟨h0, rfl⟩ | ⟨h0, x, hx, rfl⟩ <;> rcases hg' with ⟨h0', rfl⟩ | ⟨h0', x', hx', rfl⟩
  · rfl
  · exact absurd h0 h0'
  · exact absurd h0' h0
  · rw [U16_fun hx hx']

/-- A code is not both mapped and unmapped. -/
theorem maps4_not_unmapped {d : Bytes} {b sc c g : Nat} (h : Maps4 d b sc c g) : ¬ Unmapped4 d b sc c := by
  rintro ⟨i', s', hi', hs', hlt⟩
  obtain ⟨i, s, dl, ro, hi, hs, hd, hr, hle, hg⟩ := h
  obtain rfl := isSegment_fun hi hi'
  have := U16_fun hs hs'
  omega

/-- **C26** The answer is an equivalence: for a well-formed subtable the lookup returns glyph `g` exactly when the
file maps the code to `g`, and "not found" exactly when the file has no glyph for it. -/
theorem cmap_lookup_bmp_iff {d : Bytes} {cm : Nat} {c : Cmap} (h : parseCmapAt d cm = .ok c) :
    ∃ off sc, HasRecord d cm 3 1 off ∧ IsFormat4 d (cm + off) sc ∧
      (WellFormed4 d (cm + off) sc → ∀ r ≤ 0xFFFF,
        (∀ g, glyphOf c r = .ok g ↔ Maps4 d (cm + off) sc r g) ∧
        (glyphOf c r = .error .notFound ↔ Unmapped4 d (cm + off) sc r)) := by
  obtain ⟨off, sc, h1, h2, h3⟩ := cmap_lookup_bmp h
  refine ⟨off, sc, h1, h2, fun W r hr => ?_⟩
  rcases h3 W r hr with ⟨g, hg, hm⟩ | ⟨hn, hu⟩
  · refine ⟨fun g' => ?_, ?_⟩
    · rw [hg]
      constructor
      · rintro e; cases e; exact hm
      · intro hm'; rw [maps4_unique hm hm']
    · rw [hg]
      constructor
      · intro e; cases e
      · intro hu; exact (maps4_not_unmapped hm hu).elim
  · refine ⟨fun g' => ?_, ?_⟩
    · rw [hn]
      constructor
      · intro e; cases e
      · intro hm; exact (maps4_not_unmapped hm hu).elim
    · exact ⟨fun _ => hu, fun _ => hn⟩

/-- **C26** Above 0xFFFF: with no format 12 record (platform 3, encoding 10) nothing is found; otherwise the lookup
returns a glyph that a group of the file's format 12 subtable assigns to the code, and "not found" exactly when no
group contains the code.  No well-formedness needed; never a panic. -/
theorem cmap_lookup_supplementary {d : Bytes} {cm : Nat} {c : Cmap} (h : parseCmapAt d cm = .ok c) :
    ((¬ ∃ off, HasRecord d cm 3 10 off) → ∀ r, 0xFFFF < r → glyphOf c r = .error .notFound) ∧
    ((∃ off, HasRecord d cm 3 10 off) → ∃ off n, HasRecord d cm 3 10 off ∧ U16 d (cm + off) 12 ∧
      U32 d (cm + off + 12) n ∧ ∀ r, 0xFFFF < r →
        (∃ g, glyphOf c r = .ok g ∧ Maps12 d (cm + off) n r g) ∨
        (glyphOf c r = .error .notFound ∧ ¬ ∃ g, Maps12 d (cm + off) n r g)) := by
  obtain ⟨-, -, -, h12⟩ := parseCmapAt_ok h
  unfold parseCmap12 at h12
  simp only [bind_ok] at h12
  obtain ⟨n, hn, r310, hr, h12⟩ := h12
  obtain ⟨o1, o2⟩ := offset310_ok hr
  cases r310 with
  | none =>
    simp only [pure_ok] at h12
    refine ⟨fun _ r hr => ?_, ?_⟩
    · rw [glyphOf, if_neg (by omega), ← h12]; rfl
    · rintro ⟨off, n', i, hn', hi, a, b, e⟩
      obtain rfl := U16_fun hn' (u16_ok.1 hn)
      exact (o2 rfl i hi ⟨a, b⟩).elim
  | some off =>
    simp only [bind_ok] at h12
    obtain ⟨fmt, hf, h12⟩ := h12
    by_cases hfm : fmt = 12
    case neg =>
      simp only [ne_eq, hfm, not_false_eq_true, if_true, bind_ok, throw_ne, false_and, exists_false] at h12
    subst hfm
    rw [if_neg (by simp)] at h12
    simp only [bind_ok] at h12
    obtain ⟨res, hres, h12⟩ := h12
    by_cases hr0 : res = 0
    case neg =>
      simp only [ne_eq, hr0, not_false_eq_true, if_true, bind_ok, throw_ne, false_and, exists_false] at h12
    subst hr0
    rw [if_neg (by simp)] at h12
    simp only [bind_ok] at h12
    obtain ⟨ng, hng, hgr⟩ := h12
    obtain ⟨i, hi, a, b, e⟩ := o1 off rfl
    obtain ⟨g1, g2⟩ := groups_ok hgr
    have hrec : HasRecord d cm 3 10 off := ⟨n, i, u16_ok.1 hn, hi, a, b, e⟩
    refine ⟨fun hno => (hno ⟨off, hrec⟩).elim, fun _ => ⟨off, ng, hrec, u16_ok.1 hf, u32_ok.1 hng, ?_⟩⟩
    intro r hr
    have e : glyphOf c r = lookup12 c.f12 r := by rw [glyphOf, if_neg (by omega)]
    rw [e]
    cases hl : lookup12 c.f12 r with
    | ok g =>
      obtain ⟨j, x, hx, h1, h2, h3⟩ := lookup12_ok hl
      have hj : j < ng := by rw [← g1]; exact (List.getElem?_eq_some_iff.1 hx).1
      exact .inl ⟨g, rfl, j, x.start, x.stop, x.glyph, hj, g2 j x hx, h1, h2, h3⟩
    | error f =>
      obtain ⟨rfl, hno⟩ := lookup12_error hl
      refine .inr ⟨rfl, ?_⟩
      rintro ⟨g, j, s, t, g0, hj, hg, h1, h2, -⟩
      have hx : c.f12[j]? = some (c.f12[j]'(by omega)) := List.getElem?_eq_getElem _
      obtain ⟨b1, b2, b3⟩ := g2 j _ hx
      have e1 := U32_fun hg.1 b1
      have e2 := U32_fun hg.2.1 b2
      exact hno _ (List.mem_of_getElem? hx) (by omega)

/-! ### A concrete font table, and what goes wrong for tables that are not well formed -/

/-- Segments A–C (through the glyph index array) and the final 0xFFFF, plus a format 12 group for U+1F600–U+1F601. -/
def demoCmap : Bytes :=
  [0, 0, 0, 2,  0, 3, 0, 1, 0, 0, 0, 20,  0, 3, 0, 10, 0, 0, 0, 58,
   0, 4, 0, 38, 0, 0, 0, 4, 0, 4, 0, 1, 0, 0,  0, 67, 255, 255,  0, 0,  0, 65, 255, 255,  0, 1, 0, 1,  0, 4, 0, 0,
   0, 5, 0, 0, 0, 7,
   0, 12, 0, 0, 0, 0, 0, 28, 0, 0, 0, 0, 0, 0, 0, 1,  0, 1, 0xF6, 0, 0, 1, 0xF6, 1, 0, 0, 0, 9]

/-- The parser accepts it, and looks codes up. -/
example : ∃ c, parseCmapAt demoCmap 0 = .ok c ∧ glyphOf c 65 = .ok 6 ∧ glyphOf c 66 = .ok 0 ∧ glyphOf c 67 = .ok 8 ∧
    glyphOf c 64 = .error .notFound ∧ glyphOf c 0x1F601 = .ok 10 ∧ glyphOf c 0x1F602 = .error .notFound ∧
    c.chars = [(65, 6), (67, 8)] :=
  ⟨⟨⟨2, [67, 65535], [65, 65535], [1, 1], [4, 0], [5, 0, 7]⟩, [(65, 6), (67, 8)], [⟨0x1F600, 0x1F601, 9⟩]⟩,
    by decide +kernel, by decide +kernel, by decide +kernel, by decide +kernel, by decide +kernel, by decide +kernel,
    by decide +kernel, rfl⟩

/-- Its format 4 subtable is well formed. -/
theorem demoCmap_wf : WellFormed4 demoCmap 20 2 := by
  have two : ∀ i, i < 2 → i = 0 ∨ i = 1 := by omega
  refine ⟨⟨1, by omega, u16_ok.1 (by decide +kernel)⟩, ?_, ?_⟩
  · intro i hi ro hro
    have hro := u16_ok.2 hro
    rcases two i hi with rfl | rfl
    · have : u16 demoCmap (rangeAddr 20 2 0) = .ok 4 := by decide +kernel
      rw [this] at hro; cases hro; rfl
    · have : u16 demoCmap (rangeAddr 20 2 1) = .ok 0 := by decide +kernel
      rw [this] at hro; cases hro; rfl
  · intro i hi s e ro len hs he hro hl hne hle
    have hs := u16_ok.2 hs; have he := u16_ok.2 he; have hro := u16_ok.2 hro; have hl := u16_ok.2 hl
    rw [show u16 demoCmap (20 + 2) = .ok 38 by decide +kernel] at hl; cases hl
    rcases two i hi with rfl | rfl
    · rw [show u16 demoCmap (rangeAddr 20 2 0) = .ok 4 by decide +kernel] at hro; cases hro
      rw [show u16 demoCmap (20 + 16 + 2 * 2 + 2 * 0) = .ok 65 by decide +kernel] at hs; cases hs
      rw [show u16 demoCmap (20 + 14 + 2 * 0) = .ok 67 by decide +kernel] at he; cases he
      simp [rangeAddr]
    · rw [show u16 demoCmap (rangeAddr 20 2 1) = .ok 0 by decide +kernel] at hro; cases hro
      exact absurd rfl hne

/-- **C26** (counterexample to the unconditional statement)  A font whose format 4 subtable lacks the final 0xFFFF
segment is accepted by the parser, and looking up a code past its last segment makes the program panic; so does a
final segment with range offset 0xFFFF, which occurs in real fonts, for the code 0xFFFF. -/
theorem cmap_lookup_panics_fails :
    (∃ d c, parseCmapAt d 0 = .ok c ∧ glyphOf c 66 = .error .panic) ∧
    (∃ d c, parseCmapAt d 0 = .ok c ∧ glyphOf c 0xFFFF = .error .panic ∧ glyphOf c 65 = .ok 66) := by
  refine ⟨⟨[0, 0, 0, 1,  0, 3, 0, 1, 0, 0, 0, 12,
      0, 4, 0, 24, 0, 0, 0, 2, 0, 2, 0, 0, 0, 0,  0, 65,  0, 0,  0, 65,  0, 1,  0, 0],
    ⟨⟨1, [65], [65], [1], [0], []⟩, [(65, 66)], []⟩, by decide +kernel, by decide +kernel⟩,
    ⟨[0, 0, 0, 1,  0, 3, 0, 1, 0, 0, 0, 12,
      0, 4, 0, 32, 0, 0, 0, 4, 0, 2, 0, 0, 0, 0,  0, 65, 255, 255,  0, 0,  0, 65, 255, 255,  0, 1, 0, 1,
      0, 0, 255, 255],
    ⟨⟨2, [65, 65535], [65, 65535], [1, 1], [0, 65535], []⟩, [(65, 66)], []⟩,
    by decide +kernel, by decide +kernel, by decide +kernel⟩⟩

end Verif.Props
