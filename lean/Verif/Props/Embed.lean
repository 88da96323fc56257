import Verif.Lemmas.Embed.File
import Verif.Props.Cmap
/-
The embedded font subset (properties C27 to C30).  A font file is a byte string, `parseFont` is what the program reads
of it, `makeFont f vals` the file it embeds for the glyph numbers `vals` (the glyphs drawn).
-/
namespace Verif.Embed
open Verif.TTF Verif.CmapSpec Verif.FontFile

/-! ### Tables and offsets are determined by the file -/

theorem loca_unique {d : Bytes} (hD : DistinctTags d) {g m n : Nat} (h : Loca d g m) (h' : Loca d g n) : m = n := by
  have excl : ShortLoca d → LongLoca d → False := by
    rintro ⟨a1, a2, a3, a4⟩ ⟨b1, b2, x, b3, b4, b5⟩
    obtain ⟨rfl, rfl⟩ := HasTable_fun hD a3 b3
    exact b5 (U16_fun b4 a4)
  obtain ⟨lo, ll, hT, h⟩ := h
  obtain ⟨lo', ll', hT', h'⟩ := h'
  obtain ⟨rfl, rfl⟩ := HasTable_fun hD hT hT'
  rcases h with ⟨hs, _, x, hx, rfl⟩ | ⟨hl, _, hm⟩ <;> rcases h' with ⟨hs', _, x', hx', rfl⟩ | ⟨hl', _, hm'⟩
  · rw [U16_fun hx hx']
  · exact (excl hs hl').elim
  · exact (excl hs' hl).elim
  · exact U32_fun hm hm'

theorem outline_unique {d : Bytes} (hD : DistinctTags d) {g : Nat} {o o' : Bytes} (h : Outline d g o)
    (h' : Outline d g o') : o = o' := by
  obtain ⟨go, gl, a, b, hT, hA, hB, _, _, hO⟩ := h
  obtain ⟨go', gl', a', b', hT', hA', hB', _, _, hO'⟩ := h'
  obtain ⟨rfl, rfl⟩ := HasTable_fun hD hT hT'
  have := loca_unique hD hA hA'; subst this
  have := loca_unique hD hB hB'; subst this
  exact BytesAt_fun hO hO'

theorem outline_exists {d : Bytes} (hW : WellFormed d) {n g : Nat} (hn : NumGlyphs d n) (hg : g < n) :
    ∃ o, Outline d g o := by
  obtain ⟨a, ha⟩ := hW.entries n hn g (by omega)
  obtain ⟨b, hb⟩ := hW.entries n hn (g + 1) (by omega)
  obtain ⟨go, gl, hT, hle, hin⟩ := hW.glyf
  have := hW.ascending g a b ha hb
  have := hin _ _ hb
  exact ⟨_, go, gl, a, b, hT, ha, hb, by omega, by omega, by omega, rfl⟩

theorem numGlyphs_unique {d : Bytes} (hD : DistinctTags d) {m n : Nat} (h : NumGlyphs d m) (h' : NumGlyphs d n) : m = n := by
  obtain ⟨a, b, hT, hm⟩ := h
  obtain ⟨a', b', hT', hn⟩ := h'
  obtain ⟨rfl, rfl⟩ := HasTable_fun hD hT hT'
  exact U16_fun hm hn

/-- The list of glyphs the program copies, in terms of the file. -/
theorem copied_glyphs {d : Bytes} {f : Font} {vals arr : List Nat} (hW : WellFormed d) (hP : Parsed d f)
    (h : closure f vals = .ok arr) (x : Nat) :
    x ∈ arr ↔ x ∈ vals ∨ x = 0 ∨ ∃ g ∈ vals, Component d g x := by
  obtain ⟨go, gl, hT, hle, hin⟩ := hW.glyf
  obtain ⟨t, ht, hto⟩ : ∃ t, tableOf f.tables (lit "glyf") = some t ∧ t.offset = go := by
    obtain ⟨n, i, h1, h2, h3, h5, h6⟩ := id hT
    obtain ⟨s, hs'⟩ : ∃ s, U32 d (12 + 16 * i + 4) s := by
      obtain ⟨x, y, ⟨a, b, ha, hb, -⟩, -, -⟩ := h5
      obtain ⟨b0, hb0, -⟩ := ha
      have hlt8 := (List.getElem?_eq_some_iff.1 hb0).1
      have mk : ∀ q, q < d.length → ∃ v, byte d q v := fun q hq => ⟨_, d[q], List.getElem?_eq_getElem hq, rfl⟩
      obtain ⟨v0, k0⟩ := mk (12 + 16 * i + 4) (by omega)
      obtain ⟨v1, k1⟩ := mk (12 + 16 * i + 5) (by omega)
      obtain ⟨v2, k2⟩ := mk (12 + 16 * i + 6) (by omega)
      obtain ⟨v3, k3⟩ := mk (12 + 16 * i + 7) (by omega)
      exact ⟨_, _, _, ⟨_, _, k0, k1, rfl⟩, ⟨_, _, k2, k3, rfl⟩, rfl⟩
    exact ⟨⟨s, go, gl⟩, (hP.table _ _).2 ⟨n, i, h1, h2, h3, hs', h5, h6⟩, rfl⟩
  have hbase : glyfBase f = go := by simp [glyfBase, ht, hto]
  have hpl : ∀ g ∈ vals, PlainGlyph f g := by
    intro g _ a n ha hn hge
    rw [hP.data, hbase] at hn ⊢
    exact hW.scales go gl g a n hT ((hP.loca _ _).1 ha) hn hge
  rw [closure_spec hpl h]
  have hc : ∀ g, Component' f g x ↔ Component d g x := by
    intro g
    constructor
    · rintro ⟨a, b, n, ha, hb, hne, hn, hge, hr⟩
      rw [hP.data, hbase] at hn hr
      exact ⟨go, gl, a, b, n, hT, (hP.loca _ _).1 ha, (hP.loca _ _).1 hb, hne, hn, hge, hr⟩
    · rintro ⟨go', gl', a, b, n, hT', ha, hb, hne, hn, hge, hr⟩
      obtain ⟨rfl, rfl⟩ := HasTable_fun hW.tags hT hT'
      exact ⟨a, b, n, (hP.loca _ _).2 ha, (hP.loca _ _).2 hb, hne, by rw [hP.data, hbase]; exact hn, hge,
        by rw [hP.data, hbase]; exact hr⟩
  simp only [hc]

/-! ### C27: the glyphs -/

/-- **C27** In the embedded file the outline of every glyph drawn, of glyph 0 and of every component of a glyph drawn is
exactly its outline in the original font. -/
theorem drawn_glyph_outline {d : Bytes} {f : Font} {vals : List Nat} {e : Bytes} {n : Nat}
    (hW : WellFormed d) (hp : parseFont d = .ok f) (he : makeFont f vals = .ok e) (hlt : e.length < 2 ^ 32)
    (hn : NumGlyphs d n) {g : Nat} (hg : g < n) (hdrawn : g ∈ vals ∨ g = 0 ∨ ∃ v ∈ vals, Component d v g) (o : Bytes) :
    Outline e g o ↔ Outline d g o := by
  have hP := parseFont_ok hW.tags hp
  have := numGlyphs_unique hW.tags hn hP.glyphs; subst this
  obtain ⟨hD, hNG, go, gl, arr, hT, hle, hcl, h0, hk⟩ := embedded_outlines hW hP he hlt
  obtain ⟨x, y, hx, hy, hxy, hyl, hin, -⟩ := hk g hg
  obtain ⟨o1, ho1, hB⟩ := hin ((copied_glyphs hW hP hcl g).2 hdrawn)
  have hE : Outline e g o1 := ⟨go, gl, x, y, hT, hx, hy, hxy, hyl, hB⟩
  have hO : Outline d g o1 := by
    obtain ⟨a, b, ha, hb, hlen, hcopy⟩ := glyphData_len ho1
    obtain ⟨sgo, sgl, sT, sle, sin⟩ := hW.glyf
    have haL := (hP.loca _ _).1 ha
    have hbL := (hP.loca _ _).1 hb
    have hab := hW.ascending g a b haL hbL
    obtain ⟨_, ho1'⟩ := hcopy hab
    have hbl := sin _ _ hbL
    have hbase : glyfBase f = sgo ∨ a = b := by
      by_cases hab' : a = b
      · exact .inr hab'
      · left
        obtain ⟨n', i, h1, h2, h3, h5, h6⟩ := id sT
        cases ht : tableOf f.tables (lit "glyf") with
        | some t =>
          have := HasTable_fun hW.tags (table_of ((hP.table _ _).1 ht)) sT
          simp [glyfBase, ht, this.1]
        | none =>
          exfalso
          obtain ⟨s, hs'⟩ : ∃ s, U32 d (12 + 16 * i + 4) s := by
            obtain ⟨x, y, ⟨a, b, ha, hb, -⟩, -, -⟩ := h5
            obtain ⟨b0, hb0, -⟩ := ha
            have hlt8 := (List.getElem?_eq_some_iff.1 hb0).1
            have mk : ∀ q, q < d.length → ∃ v, byte d q v := fun q hq => ⟨_, d[q], List.getElem?_eq_getElem hq, rfl⟩
            obtain ⟨v0, k0⟩ := mk (12 + 16 * i + 4) (by omega)
            obtain ⟨v1, k1⟩ := mk (12 + 16 * i + 5) (by omega)
            obtain ⟨v2, k2⟩ := mk (12 + 16 * i + 6) (by omega)
            obtain ⟨v3, k3⟩ := mk (12 + 16 * i + 7) (by omega)
            exact ⟨_, _, _, ⟨_, _, k0, k1, rfl⟩, ⟨_, _, k2, k3, rfl⟩, rfl⟩
          have := (hP.table (lit "glyf") ⟨s, sgo, sgl⟩).2 ⟨n', i, h1, h2, h3, hs', h5, h6⟩
          rw [ht] at this; cases this
    rw [hP.data] at ho1'
    refine ⟨sgo, sgl, a, b, sT, haL, hbL, hab, hbl, by omega, ?_⟩
    rcases hbase with hb' | rfl
    · rw [ho1', hb']
    · rw [ho1']; simp
  constructor
  · intro h; rw [outline_unique hD h hE]; exact hO
  · intro h; rw [outline_unique hW.tags h hO]; exact hE

/-- **C27** Every other glyph is empty in the embedded file. -/
theorem other_glyph_empty {d : Bytes} {f : Font} {vals : List Nat} {e : Bytes} {n : Nat}
    (hW : WellFormed d) (hp : parseFont d = .ok f) (he : makeFont f vals = .ok e) (hlt : e.length < 2 ^ 32)
    (hn : NumGlyphs d n) {g : Nat} (hg : g < n) (h1 : g ∉ vals) (h2 : g ≠ 0) (h3 : ¬ ∃ v ∈ vals, Component d v g)
    (o : Bytes) : Outline e g o ↔ o = [] := by
  have hP := parseFont_ok hW.tags hp
  have := numGlyphs_unique hW.tags hn hP.glyphs; subst this
  obtain ⟨hD, hNG, go, gl, arr, hT, hle, hcl, h0, hk⟩ := embedded_outlines hW hP he hlt
  obtain ⟨x, y, hx, hy, hxy, hyl, -, hout⟩ := hk g hg
  have hna : g ∉ arr := fun hm => by
    rcases (copied_glyphs hW hP hcl g).1 hm with h | h | h
    · exact h1 h
    · exact h2 h
    · exact h3 h
  have := hout hna; subst this
  have hE : Outline e g [] := ⟨go, gl, x, x, hT, hx, hy, hxy, hyl, by omega, by simp⟩
  constructor
  · intro h; exact outline_unique hD h hE
  · rintro rfl; exact hE

/-- **C27** The embedded file has the same number of glyphs, and its `loca` table starts at 0, ascends and stays inside
`glyf`, which lies inside the file. -/
theorem embedded_loca {d : Bytes} {f : Font} {vals : List Nat} {e : Bytes} {n : Nat}
    (hW : WellFormed d) (hp : parseFont d = .ok f) (he : makeFont f vals = .ok e) (hlt : e.length < 2 ^ 32)
    (hn : NumGlyphs d n) :
    NumGlyphs e n ∧ Loca e 0 0 ∧ ∃ go gl, HasTable e (lit "glyf") go gl ∧ go + gl ≤ e.length ∧
      ∀ g < n, ∃ x y, Loca e g x ∧ Loca e (g + 1) y ∧ x ≤ y ∧ y ≤ gl := by
  have hP := parseFont_ok hW.tags hp
  have := numGlyphs_unique hW.tags hn hP.glyphs; subst this
  obtain ⟨hD, hNG, go, gl, arr, hT, hle, hcl, h0, hk⟩ := embedded_outlines hW hP he hlt
  refine ⟨hNG, h0, go, gl, hT, hle, fun g hg => ?_⟩
  obtain ⟨x, y, hx, hy, hxy, hyl, -, -⟩ := hk g hg
  exact ⟨x, y, hx, hy, hxy, hyl⟩

/-- **C27** End to end: the glyph the program chooses for a character is the one the font file's own character map gives
(well-formed format 4 subtable), and in the embedded file that glyph number has the outline the original font has. -/
theorem drawn_char_outline {d : Bytes} {f : Font} {vals : List Nat} {e : Bytes} {n : Nat}
    (hW : WellFormed d) (hp : parseFont d = .ok f) (he : makeFont f vals = .ok e) (hlt : e.length < 2 ^ 32)
    (hn : NumGlyphs d n) :
    ∃ cm cl off sc, HasTable d (lit "cmap") cm cl ∧ HasRecord d cm 3 1 off ∧ IsFormat4 d (cm + off) sc ∧
      (WellFormed4 d (cm + off) sc → ∀ r ≤ 0xFFFF, ∀ g < n, Maps4 d (cm + off) sc r g →
        glyphOf f.cmap r = .ok g ∧ (g ∈ vals → ∀ o, Outline e g o ↔ Outline d g o)) := by
  have hP := parseFont_ok hW.tags hp
  obtain ⟨cm, cl, hT, hc⟩ := hP.cmap
  obtain ⟨off, sc, h1, h2, h3⟩ := Verif.Props.cmap_lookup_bmp_iff hc
  exact ⟨cm, cl, off, sc, hT, h1, h2, fun W r hr g hg hm =>
    ⟨((h3 W r hr).1 g).2 hm, fun hv o => drawn_glyph_outline hW hp he hlt hn hg (.inl hv) o⟩⟩

/-! ### C28: composite glyphs -/

/-- **C28** If no component of a drawn glyph is itself composite, every glyph reachable from a drawn glyph through
composite references is embedded with its original outline.  The condition is needed: components of components are not embedded
(`nested_component_missing_fails`). -/
theorem reachable_embedded {d : Bytes} {f : Font} {vals : List Nat} {e : Bytes} {n : Nat}
    (hW : WellFormed d) (hp : parseFont d = .ok f) (he : makeFont f vals = .ok e) (hlt : e.length < 2 ^ 32)
    (hn : NumGlyphs d n) (hflat : ∀ v ∈ vals, ∀ c, Component d v c → ∀ x, ¬ Component d c x)
    {v g : Nat} (hv : v ∈ vals) (hr : Reaches d v g) (hg : g < n) (o : Bytes) : Outline e g o ↔ Outline d g o := by
  apply drawn_glyph_outline hW hp he hlt hn hg
  cases hr with
  | refl => exact .inl hv
  | step hc hr =>
    cases hr with
    | refl => exact .inr (.inr ⟨v, hv, hc⟩)
    | step hc' _ => exact (hflat v hv _ hc _ hc').elim

/-! ### C29: the table directory -/

/-- **C29** The embedded file has nine tables with distinct tags in ascending order.  Record `i` gives an offset that is
a multiple of four, the tables follow each other (each padded to a multiple of four) from the end of the directory to
the end of the file.  The checksums of `glyf` and `loca` are the sums of their words; the other tables and their
checksums are those of the original font, byte for byte including the padding, or empty if the font has no such
table. -/
theorem embedded_directory {d : Bytes} {f : Font} {vals : List Nat} {e : Bytes}
    (hD : DistinctTags d) (hp : parseFont d = .ok f) (he : makeFont f vals = .ok e) (hlt : e.length < 2 ^ 32) :
    U16 e 4 9 ∧ DistinctTags e ∧ ∃ off : Nat → Nat, off 0 = 12 + 16 * 9 ∧ off 9 = e.length ∧
      ∀ i < 9, ∃ tag sum len bs,
        [lit "cvt ", lit "fpgm", lit "glyf", lit "head", lit "hhea", lit "hmtx", lit "loca", lit "maxp", lit "prep"][i]?
          = some tag ∧
        EntryNo e i tag sum (off i) len ∧ off i % 4 = 0 ∧ off (i + 1) = off i + pad4 len ∧
        BytesAt e (off i) (pad4 len) bs ∧
        (tag = lit "glyf" ∨ tag = lit "loca" → sum = wordSum bs) ∧
        (tag ≠ lit "glyf" → tag ≠ lit "loca" →
          (∃ o, HasEntry d tag sum o len ∧ BytesAt d o (pad4 len) bs) ∨ ((∀ o l, ¬ HasTable d tag o l) ∧ len = 0)) := by
  have hP := parseFont_ok hD hp
  obtain ⟨glyf, loca, hgl, h9, off, h0, h9', htab⟩ := embedded_tables hP he hlt
  refine ⟨h9, distinctTags_of h9 (fun i hi => by
    obtain ⟨t, s, l, _, ht, hE, _⟩ := htab i hi; exact ⟨t, s, _, l, ht, hE⟩), off, h0, h9', ?_⟩
  have h4 : ∀ i ≤ 9, off i % 4 = 0 := by
    intro i
    induction i with
    | zero => intro _; rw [h0]
    | succ i ih =>
      intro hi
      obtain ⟨_, _, _, _, _, _, hnext, _⟩ := htab i (by omega)
      have := ih (by omega)
      rw [hnext, pad4]; omega
  intro i hi
  obtain ⟨tag, sum, len, bs, ht, hE, hnext, hB, hg, hl, hc⟩ := htab i hi
  refine ⟨tag, sum, len, bs, ht, hE, h4 i (by omega), hnext, hB, ?_, ?_⟩
  · rintro (h | h)
    · exact (hg h).2.2
    · exact (hl h).2.2
  · intro n1 n2
    rcases hc n1 n2 with h | ⟨h, h', _⟩
    · exact .inl h
    · exact .inr ⟨h, h'⟩

/-! ### C30: numbers -/

/-- **C30** A 16-bit number written is read back, wherever it stands. -/
theorem u16_roundtrip (pre post : Bytes) (n : Nat) (hn : n < 2 ^ 16) : u16 (pre ++ be16 n ++ post) pre.length = .ok n := by
  rw [u16_ok]
  exact U16_of_drop (rest := post) (by simp [List.append_assoc]) hn

/-- **C30** A 32-bit number written is read back, wherever it stands. -/
theorem u32_roundtrip (pre post : Bytes) (n : Nat) (hn : n < 2 ^ 32) : u32 (pre ++ be32 n ++ post) pre.length = .ok n := by
  rw [u32_ok]
  exact U32_of_drop (rest := post) (by simp [List.append_assoc]) hn

/-- **C30** A larger number is truncated to its low 16 bits. -/
theorem u16_truncates (pre post : Bytes) (n : Nat) :
    u16 (pre ++ be16 n ++ post) pre.length = .ok (n % 2 ^ 16) := by
  have : be16 n = be16 (n % 2 ^ 16) := by
    unfold be16
    congr 1
    · apply UInt8.toNat_inj.1; simp only [UInt8.toNat_ofNat']; omega
    congr 1
    · apply UInt8.toNat_inj.1; simp only [UInt8.toNat_ofNat']; omega
  rw [this]
  exact u16_roundtrip pre post _ (Nat.mod_lt _ (by decide))

/-- **C30** Signed numbers: the two's complement of a 16-bit integer is read back as that integer. -/
theorem i16_roundtrip (pre post : Bytes) (v : Int) (h1 : -32768 ≤ v) (h2 : v < 32768) :
    i16 (pre ++ be16 (v % 65536).toNat ++ post) pre.length = .ok v := by
  have hr := u16_roundtrip pre post (v % 65536).toNat (by omega)
  unfold i16
  rw [hr]
  simp only [bind, Except.bind]
  split
  · next h => simp only [pure, Except.pure, Except.ok.injEq]; omega
  · next h => simp only [pure, Except.pure, Except.ok.injEq]; omega

example : i16 ([7] ++ be16 ((-200 : Int) % 65536).toNat ++ [9]) 1 = .ok (-200) := by decide

/-! ### A concrete font: glyph 1 is made of glyph 2, glyph 2 of glyph 3 -/

/-- A checker for `PlainScales`. -/
def plainCheck (d : Bytes) : Nat → Nat → Bool
  | 0, _ => false
  | fuel + 1, off =>
    match u16 d off with
    | .error _ => true
    | .ok fl => (!fl.testBit 7 || (!fl.testBit 3 && !fl.testBit 6)) &&
        (!fl.testBit 5 || plainCheck d fuel (off + 4 + argBytes fl))

theorem plainCheck_ok {d : Bytes} : ∀ (fuel off : Nat), plainCheck d fuel off = true → PlainScales d off := by
  intro fuel
  induction fuel with
  | zero => intro off h; simp [plainCheck] at h
  | succ fuel ih =>
    intro off h off' fl hr hfl h7
    unfold plainCheck at h
    cases hr with
    | here =>
      rw [u16_ok.2 hfl] at h
      simp only [h7] at h
      simp at h
      exact ⟨h.1.1, h.1.2⟩
    | next hf h5 hr =>
      rw [u16_ok.2 hf] at h
      simp only [h5] at h
      simp at h
      exact ih _ h.2 _ _ hr hfl h7

def distinctCheck (d : Bytes) : Bool :=
  match u16 d 4 with
  | .error _ => true
  | .ok n => decide (∀ i < n, ∀ j < n, (d.drop (12 + 16 * i)).take 4 = (d.drop (12 + 16 * j)).take 4 → i = j)

theorem distinctCheck_ok {d : Bytes} (h : distinctCheck d = true) : DistinctTags d := by
  intro n i j hn hi hj heq
  unfold distinctCheck at h
  rw [u16_ok.2 hn] at h
  simp only [decide_eq_true_eq] at h
  exact h i hi j hj heq

/-- A checker for `WellFormed`. -/
def wellFormedCheck (d : Bytes) (f : Font) : Bool :=
  (match tableOf f.tables (lit "head"), tableOf f.tables (lit "maxp"), tableOf f.tables (lit "glyf") with
    | some h, some m, some t => decide (54 ≤ h.length) && decide (6 ≤ m.length) && decide (t.offset + t.length ≤ d.length) &&
        f.loca.all (fun a => decide (a ≤ t.length) &&
          (match u16 d (t.offset + a) with
            | .ok n => decide (n < 0x8000) || plainCheck d 20 (t.offset + a + 10)
            | .error _ => true))
    | _, _, _ => false) &&
  decide (f.nGlyphs + 1 ≤ f.loca.length) &&
  decide (∀ g < f.loca.length, g + 1 < f.loca.length → f.loca.getD g 0 ≤ f.loca.getD (g + 1) 0)

theorem entry_of_table {d tag : Bytes} {o l : Nat} (h : HasTable d tag o l) : ∃ s, HasEntry d tag s o l := by
  obtain ⟨n, i, h1, h2, h3, h5, h6⟩ := h
  obtain ⟨x, y, ⟨a, b, ha, hb, -⟩, -, -⟩ := id h5
  obtain ⟨b0, hb0, -⟩ := ha
  have hlt8 := (List.getElem?_eq_some_iff.1 hb0).1
  have mk : ∀ q, q < d.length → ∃ v, byte d q v := fun q hq => ⟨_, d[q], List.getElem?_eq_getElem hq, rfl⟩
  obtain ⟨v0, k0⟩ := mk (12 + 16 * i + 4) (by omega)
  obtain ⟨v1, k1⟩ := mk (12 + 16 * i + 5) (by omega)
  obtain ⟨v2, k2⟩ := mk (12 + 16 * i + 6) (by omega)
  obtain ⟨v3, k3⟩ := mk (12 + 16 * i + 7) (by omega)
  exact ⟨_, n, i, h1, h2, h3, ⟨_, _, ⟨_, _, k0, k1, rfl⟩, ⟨_, _, k2, k3, rfl⟩, rfl⟩, h5, h6⟩

theorem wellFormed_of_check {d : Bytes} {f : Font} (hD : DistinctTags d) (hP : Parsed d f)
    (h : wellFormedCheck d f = true) : WellFormed d := by
  unfold wellFormedCheck at h
  simp only [Bool.and_eq_true] at h
  obtain ⟨⟨h1, h2⟩, h3⟩ := h
  split at h1
  · next hd mx t hh hm ht =>
    simp only [Bool.and_eq_true, decide_eq_true_eq, List.all_eq_true] at h1 h2 h3
    obtain ⟨⟨⟨a1, a2⟩, a3⟩, a4⟩ := h1
    have T : ∀ tag t o l, tableOf f.tables tag = some t → HasTable d tag o l → t.offset = o ∧ t.length = l := by
      intro tag t o l ht hT
      exact HasTable_fun hD (table_of ((hP.table _ _).1 ht)) hT
    refine ⟨hD, ?_, ?_, ?_, ?_, ⟨t.offset, t.length, table_of ((hP.table _ _).1 ht), a3, ?_⟩, ?_⟩
    · intro o l hT; have := (T _ _ _ _ hh hT).2; omega
    · intro o l hT; have := (T _ _ _ _ hm hT).2; omega
    · intro n hn g hg
      have := numGlyphs_unique hD hn hP.glyphs; subst this
      exact ⟨f.loca[g]'(by omega), (hP.loca _ _).1 (List.getElem?_eq_getElem _)⟩
    · intro g a b ha hb
      have ha' := (hP.loca _ _).2 ha
      have hb' := (hP.loca _ _).2 hb
      have l1 := (List.getElem?_eq_some_iff.1 ha').1
      have l2 := (List.getElem?_eq_some_iff.1 hb').1
      have := h3 g l1 l2
      simpa [List.getD, ha', hb'] using this
    · intro g a ha
      exact (a4 a (List.mem_of_getElem? ((hP.loca _ _).2 ha))).1
    · intro go gl g a n hT ha hn hge
      obtain ⟨rfl, rfl⟩ := T _ _ _ _ ht hT
      have := (a4 a (List.mem_of_getElem? ((hP.loca _ _).2 ha))).2
      rw [u16_ok.2 hn] at this
      simp only [Bool.or_eq_true, decide_eq_true_eq] at this
      rcases this with hlt | hok
      · omega
      · exact plainCheck_ok _ _ hok
  · simp at h1

/-- A font file with five glyphs (built by `tools/ttf.py`): 0, 3 and 4 are simple, glyph 1 is a composite of glyph 2,
glyph 2 is a composite of glyph 3.  Characters A to D have glyphs 1 to 4. -/
def demoFont : Bytes :=
  [0, 1, 0, 0, 0, 7, 0, 64, 0, 2, 0, 48, 99, 109, 97, 112, 0, 12, 0, 119, 0, 0, 0, 124,
   0, 0, 0, 44, 103, 108, 121, 102, 0, 32, 0, 30, 0, 0, 0, 168, 0, 0, 0, 68, 104, 101, 97, 100,
   95, 28, 64, 238, 0, 0, 0, 236, 0, 0, 0, 54, 104, 104, 101, 97, 3, 34, 1, 49, 0, 0, 1, 36,
   0, 0, 0, 36, 104, 109, 116, 120, 9, 206, 0, 0, 0, 0, 1, 72, 0, 0, 0, 20, 108, 111, 99, 97,
   0, 42, 0, 62, 0, 0, 1, 92, 0, 0, 0, 12, 109, 97, 120, 112, 0, 5, 80, 0, 0, 0, 1, 104,
   0, 0, 0, 6, 0, 0, 0, 1, 0, 3, 0, 1, 0, 0, 0, 12, 0, 4, 0, 32, 0, 0, 0, 4,
   0, 4, 0, 1, 0, 0, 0, 68, 255, 255, 0, 0, 0, 65, 255, 255, 255, 192, 0, 1, 0, 0, 0, 0,
   0, 1, 0, 0, 0, 0, 0, 1, 0, 1, 0, 0, 255, 255, 0, 0, 0, 0, 0, 9, 0, 9, 0, 2,
   0, 2, 0, 0, 255, 255, 0, 0, 0, 0, 0, 9, 0, 9, 0, 2, 0, 3, 0, 0, 0, 1, 0, 0,
   0, 0, 0, 3, 0, 3, 0, 0, 0, 1, 0, 0, 0, 0, 0, 4, 0, 4, 0, 0, 0, 1, 0, 0,
   0, 1, 0, 0, 0, 0, 0, 0, 95, 15, 60, 245, 0, 0, 3, 232, 0, 0, 0, 0, 0, 0, 0, 0,
   0, 0, 0, 0, 0, 0, 0, 0, 0, 0, 0, 0, 0, 9, 0, 9, 0, 0, 0, 8, 0, 2, 0, 0,
   0, 0, 0, 0, 0, 1, 0, 0, 3, 32, 255, 56, 0, 0, 1, 244, 0, 0, 0, 0, 0, 0, 0, 0,
   0, 0, 0, 0, 0, 0, 0, 0, 0, 0, 0, 0, 0, 0, 0, 5, 1, 244, 0, 0, 1, 245, 0, 0,
   1, 246, 0, 0, 1, 247, 0, 0, 1, 248, 0, 0, 0, 0, 0, 6, 0, 14, 0, 22, 0, 28, 0, 34,
   0, 0, 80, 0, 0, 5, 0, 0]

def demoParsed : Font := (parseFont demoFont).toOption.getD
  ⟨[], [], 0, false, 0, 0, 0, 0, [], ⟨⟨0, [], [], [], [], []⟩, [], []⟩, []⟩

theorem demoParsed_ok : parseFont demoFont = .ok demoParsed := by decide +kernel

theorem demo_distinct : DistinctTags demoFont := distinctCheck_ok (by decide +kernel)

theorem demo_wellFormed : WellFormed demoFont :=
  wellFormed_of_check demo_distinct (parseFont_ok demo_distinct demoParsed_ok) (by decide +kernel)

/-- The file embedded when character A (glyph 1) is drawn. -/
def demoEmbedded : Bytes := (makeFont demoParsed [1]).toOption.getD []

theorem demoEmbedded_ok : makeFont demoParsed [1] = .ok demoEmbedded := by decide +kernel

theorem demo_component : ∀ g ∈ [1, 2], Component demoFont g (g + 1) := by
  have hP := parseFont_ok demo_distinct demoParsed_ok
  have ht : tableOf demoParsed.tables (lit "glyf") = some ⟨2097182, 168, 68⟩ := by decide +kernel
  have hT := table_of ((hP.table _ _).1 ht)
  intro g hg
  simp only [List.mem_cons, List.not_mem_nil, or_false] at hg
  rcases hg with rfl | rfl
  · exact ⟨168, 68, 12, 28, 0xFFFF, hT, (hP.loca 1 12).1 (by decide +kernel), (hP.loca 2 28).1 (by decide +kernel), by decide,
      u16_ok.1 (by decide +kernel), by decide, .here (fl := 2) (u16_ok.1 (by decide +kernel)) (u16_ok.1 (by decide +kernel))⟩
  · exact ⟨168, 68, 28, 44, 0xFFFF, hT, (hP.loca 2 28).1 (by decide +kernel), (hP.loca 3 44).1 (by decide +kernel), by decide,
      u16_ok.1 (by decide +kernel), by decide, .here (fl := 2) (u16_ok.1 (by decide +kernel)) (u16_ok.1 (by decide +kernel))⟩

/-- The hypotheses of `drawn_glyph_outline` hold for the demonstration font, and glyphs 1 and 2 (16 bytes each) are in
the embedded file. -/
example : ∃ o, o.length = 16 ∧ Outline demoEmbedded 2 o := by
  have hP := parseFont_ok demo_distinct demoParsed_ok
  have hn : NumGlyphs demoFont 5 := by
    have := hP.glyphs
    rwa [show demoParsed.nGlyphs = 5 by decide +kernel] at this
  have ht : tableOf demoParsed.tables (lit "glyf") = some ⟨2097182, 168, 68⟩ := by decide +kernel
  have hT := table_of ((hP.table _ _).1 ht)
  refine ⟨(demoFont.drop 196).take 16, by decide +kernel, ?_⟩
  rw [drawn_glyph_outline demo_wellFormed demoParsed_ok demoEmbedded_ok (by decide +kernel) hn (by decide)
    (.inr (.inr ⟨1, by simp, demo_component 1 (by simp)⟩))]
  exact ⟨168, 68, 28, 44, hT, (hP.loca 2 28).1 (by decide +kernel), (hP.loca 3 44).1 (by decide +kernel), by decide, by decide,
    by decide +kernel, rfl⟩

/-- **C28** fails in general: drawing A (glyph 1) uses glyph 3 through glyph 2, but glyph 3 is not embedded: it has an
outline of 12 bytes in the original font and none in the embedded file.  `completeGlyphClosure` looks only at the
glyphs drawn, not at the components it adds. -/
theorem nested_component_missing_fails :
    ∃ d f vals e n, WellFormed d ∧ parseFont d = .ok f ∧ makeFont f vals = .ok e ∧ e.length < 2 ^ 32 ∧ NumGlyphs d n ∧
      ∃ v ∈ vals, ∃ g < n, Reaches d v g ∧ (∃ o, o ≠ [] ∧ Outline d g o) ∧ ∀ o, Outline e g o ↔ o = [] := by
  have hP := parseFont_ok demo_distinct demoParsed_ok
  have hn : NumGlyphs demoFont 5 := by
    have := hP.glyphs
    rwa [show demoParsed.nGlyphs = 5 by decide +kernel] at this
  have ht : tableOf demoParsed.tables (lit "glyf") = some ⟨2097182, 168, 68⟩ := by decide +kernel
  have hT := table_of ((hP.table _ _).1 ht)
  refine ⟨demoFont, demoParsed, [1], demoEmbedded, 5, demo_wellFormed, demoParsed_ok, demoEmbedded_ok, by decide +kernel, hn,
    1, by simp, 3, by decide, .step (demo_component 1 (by simp)) (.step (demo_component 2 (by simp)) (.refl 3)),
    ⟨(demoFont.drop 212).take 12, by decide +kernel, 168, 68, 44, 56, hT, (hP.loca 3 44).1 (by decide +kernel),
      (hP.loca 4 56).1 (by decide +kernel), by decide, by decide, by decide +kernel, rfl⟩, ?_⟩
  have hcl : closure demoParsed [1] = .ok [1, 0, 2] := by decide +kernel
  intro o
  refine other_glyph_empty demo_wellFormed demoParsed_ok demoEmbedded_ok (by decide +kernel) hn (by decide) (by decide)
    (by decide) ?_ o
  intro hc
  have := (copied_glyphs demo_wellFormed hP hcl 3).2 (.inr (.inr hc))
  revert this
  decide

end Verif.Embed
