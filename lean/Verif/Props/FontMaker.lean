import Verif.Lemmas.MapFile
import Verif.Lemmas.Embed.Metrics
import Verif.Lemmas.Embed.Info
import Verif.Props.CmapChars
/-
Font definitions made by the command `fontmaker` (property C87).
-/
namespace Verif.Props
open Verif.FontMaker Verif.PdfObject Verif.Encoding Verif.MapFile
open Verif.TTF Verif.CmapSpec Verif.FontFile Verif.Typeset

/-! ### Map files -/

/-- **C87** A map file is read as its lines say: a code has the character and the name of its last line, and is `.notdef` if it
has none. -/
theorem map_file_reads {ls : List Bytes} {es : List MapFile.Entry} (h : Lines ls es) :
    ∃ maps, loadMap ls = .ok maps ∧ maps.length = 256 ∧
      ∀ c, c < 256 → ∃ m, maps[c]? = some m ∧ m.name = nameOf es c ∧
        (∀ e : MapFile.Entry, entry es c = some e → m.uv = (e.char : Int)) ∧ (entry es c = none → m.uv = -1) := by
  obtain ⟨maps, h1, h2, h3⟩ := loadLines_ok h (List.replicate 256 notdef) [] (by
    refine ⟨List.length_replicate .., fun c hc => ?_⟩
    rw [List.getElem?_replicate, if_pos hc]
    rfl)
  refine ⟨maps, h1, h2, fun c hc => ⟨_, h3 c hc, ?_⟩⟩
  simp only [List.nil_append, nameOf]
  cases entry es c with
  | none => simp [notdef]
  | some e => simp

/-! ### The encoding -/

/-- **C87** The encoding object written for an encoding reads back as that encoding: every code has the name the encoding gives it,
where the base encoding has the names `base` (those of `cp1252.map`).  The exception is an encoding that agrees with the base at code
0 and not at code 1. -/
theorem encoding_reads {names base : Nat → Bytes} (hn : ∀ c, c < 256 → GlyphName (names c))
    (h : ¬ (names 0 = base 0 ∧ names 1 ≠ base 1)) (rest : Bytes) :
    ∃ v t, readObject (encodingObj (makeFontEncoding names base) ++ (lit "endobj\n" ++ rest)) = some (v, none) ∧
      table base v = some t ∧ ∀ c, c < 256 → t c = names c := by
  refine ⟨_, fun c => match (named names base (List.range 256)).reverse.find? fun p => p.1 = c with
      | some p => p.2
      | none => base c, read_plain' (encoding_value hn), ?_, ?_⟩
  · rw [table_value]
    have : assign none (vals names base 0 (List.range 256)) = some (named names base (List.range 256)) := by
      by_cases h0 : names 0 = base 0
      · refine assign_vals _ _ _ (.inr fun c _ hc => ?_)
        subst hc
        by_contra h1
        exact h ⟨h0, h1⟩
      · rw [show List.range 256 = 0 :: (List.range 255).map (· + 1) from by rw [← List.range_succ_eq_map]]
        rw [vals, if_pos h0, if_pos (by decide)]
        have := assign_vals (names := names) (ref := base) ((List.range 255).map (· + 1)) 0 (some 1) (.inl rfl)
        have hz : ContentReader.nat ((0 : Nat) : ℚ) = some 0 := nat_cast 0
        simp only [List.cons_append, List.nil_append, assign, hz, Option.bind_some, this, Option.map_some]
        simp [named, h0]
    rw [this]
    rfl
  · intro c hc
    exact find_named (by simpa using hc) _ rfl

/-- **C87** (the defect) If the encoding agrees with the base at code 0 and not at code 1, no number is written before the name of
code 1: the array of differences is not valid. -/
theorem encoding_reads_fails {names base : Nat → Bytes} (hn : ∀ c, c < 256 → GlyphName (names c))
    (h0 : names 0 = base 0) (h1 : names 1 ≠ base 1) (rest : Bytes) :
    ∃ v, readObject (encodingObj (makeFontEncoding names base) ++ (lit "endobj\n" ++ rest)) = some (v, none) ∧ table base v = none := by
  refine ⟨_, read_plain' (encoding_value hn), ?_⟩
  have hr : ∀ n, List.range (n + 2) = 0 :: 1 :: (List.range n).map (· + 2) := by
    intro n; simp [List.range_succ_eq_map, Function.comp_def]
  rw [table_value, hr 254]
  rw [vals, if_neg (by simpa using h0), vals, if_pos h1, if_neg (by decide)]
  rfl

/-- **C87** From map file to encoding: the object for the encoding of a map file gives every code the name the file gives it. -/
theorem map_file_encoding {ls bs : List Bytes} {es base : List MapFile.Entry} (h : Lines ls es) (hb : Lines bs base)
    (hx : ¬ (nameOf es 0 = nameOf base 0 ∧ nameOf es 1 ≠ nameOf base 1)) (rest : Bytes) :
    ∃ maps ref v t, loadMap ls = .ok maps ∧ loadMap bs = .ok ref ∧
      readObject (encodingObj (makeFontEncoding (fun c => (maps.getD c notdef).name) (fun c => (ref.getD c notdef).name)) ++
        (lit "endobj\n" ++ rest)) = some (v, none) ∧
      table (nameOf base) v = some t ∧ ∀ c, c < 256 → t c = nameOf es c := by
  obtain ⟨maps, m1, m2, m3⟩ := map_file_reads h
  obtain ⟨ref, r1, r2, r3⟩ := map_file_reads hb
  have names : ∀ {ls es}, Lines ls es → ∀ c, GlyphName (nameOf es c) := by
    intro ls es hl c
    unfold nameOf
    cases he : entry es c with
    | none => exact ⟨by decide, by decide⟩
    | some e =>
      have hm : e ∈ es := by simpa using List.mem_of_find?_eq_some he
      clear he
      induction hl with
      | nil => simp at hm
      | cons hl _ ih =>
        rcases List.mem_cons.1 hm with rfl | hm
        · obtain ⟨_, _, _, _, _, h4, _⟩ := hl; exact h4
        · exact ih hm
  have outside : ∀ (maps : List FontMap) es, maps.length = 256 → (∀ c, c < 256 → ∃ m, maps[c]? = some m ∧ m.name = nameOf es c ∧
        (∀ e : MapFile.Entry, entry es c = some e → m.uv = (e.char : Int)) ∧ (entry es c = none → m.uv = -1)) → ∀ c, c < 256 → (maps.getD c notdef).name = nameOf es c := by
    intro maps es _ h c hc
    obtain ⟨m, h1, h2, _⟩ := h c hc
    rw [List.getD_eq_getElem?_getD, h1]; exact h2
  have hm := outside maps es m2 m3
  have hr := outside ref base r2 r3
  obtain ⟨v, t, e1, e2, e3⟩ := encoding_reads (names := fun c => (maps.getD c notdef).name) (base := fun c => (ref.getD c notdef).name)
    (fun c hc => by simp only [hm c hc]; exact names h c) (by simpa only [hm 0 (by decide), hm 1 (by decide), hr 0 (by decide), hr 1 (by decide)] using hx) rest
  have ht : ∃ t', table (nameOf base) v = some t' ∧ ∀ c, c < 256 → t' c = t c := by
    unfold table at e2 ⊢
    split at e2
    · split at e2
      · rename_i hcond
        rw [if_pos hcond]
        simp only [Option.map_eq_some_iff] at e2 ⊢
        obtain ⟨as, ha, rfl⟩ := e2
        refine ⟨_, ⟨as, ha, rfl⟩, fun c hc => ?_⟩
        simp only
        split <;> simp_all
      · simp at e2
    · simp at e2
  obtain ⟨t', t1, t2⟩ := ht
  exact ⟨maps, ref, v, t', m1, r1, e1, t1, fun c hc => by rw [t2 c hc, e3 c hc]; exact hm c hc⟩

/-! ### Widths -/

theorem widths_padded {d : Bytes} {f : Font} (h : parseFont d = .ok f) {g : Nat} (hg : g < f.nGlyphs) (h0 : 0 < f.nHMetrics) :
    f.widths.getD g 0 = f.widths.getD (min g (f.nHMetrics - 1)) 0 := by
  unfold parseFont at h
  split at h
  · simp only [bind_ok, throw_ne, false_and, exists_false] at h
  simp only [bind_ok, pure_ok] at h
  obtain ⟨n, hn, ts, hts, ⟨upem, fmt⟩, hhead, ⟨asc, desc, nHM⟩, hhhea, nG, hmaxp, ws, hws, cm, hcm, loca, hloca, rfl⟩ := h
  simp only at hg h0 ⊢
  unfold parseHmtx at hws
  simp only [bind_ok] at hws
  obtain ⟨p, hp, l, hl, hws⟩ := hws
  obtain ⟨h1, -⟩ := hmtxWidths_ok hl
  by_cases hlt : nHM < nG
  · rw [if_pos hlt] at hws
    cases nHM with
    | zero => omega
    | succ k =>
      simp only [pure_ok] at hws
      subst hws
      have : ∀ i, i < nG → (arrayPad l nG (l.getD k 0)).getD i 0 = l.getD i (l.getD k 0) := by
        intro i hi
        rw [arrayPad, List.getD_eq_getElem?_getD, List.getElem?_map, List.getElem?_range hi]; rfl
      rw [this g hg, this _ (by omega)]
      by_cases hgk : g ≤ k
      · rw [show min g (k + 1 - 1) = g by omega]
      · rw [show min g (k + 1 - 1) = k by omega]
        have hk : k < l.length := by omega
        have hg : l.length ≤ g := by omega
        simp [List.getD_eq_getElem?_getD, hg, hk]
  · rw [show min g (nHM - 1) = g by omega]

/-- The format 4 subtable has its segments in order. -/
def InOrder (d : Bytes) : Prop :=
  ∀ cm cl off sc, HasTable d (lit "cmap") cm cl → HasRecord d cm 3 1 off → IsFormat4 d (cm + off) sc → Ordered4 d (cm + off) sc

/-- The glyph whose width a code gets: that of its character, if the code has a name and the font has the character; else glyph 0. -/
def CodeGlyph (d : Bytes) (m : FontMap) (g : Nat) : Prop :=
  (m.name ≠ lit ".notdef" ∧ ∃ r : Nat, r < 0xFFFF ∧ m.uv = r ∧ Gives d r g) ∨
  (g = 0 ∧ (m.name = lit ".notdef" ∨ ∀ r : Nat, r < 0xFFFF → m.uv = r → ∀ x, Gives d r x → x = 0))

/-- **C87** The width in a font definition is the advance width that the font file's own `hmtx` table gives the glyph of the code's
character, in thousandths of an em, rounded to the nearest; a code without a name, or with a character the font does not have, has the
width of glyph 0.  For every well-formed font file, every table of codes. -/
theorem definition_widths {d : Bytes} {i : Info} (h : load d false = .ok i) (tags : DistinctTags d) (cmap : GoodCmap d) (order : InOrder d)
    (glyphs : ∀ n, NumGlyphs d n → 0 < n ∧ ∀ r g, Gives d r g → g < n) (maps : List FontMap) :
    (widths i.font i.font.cmap.chars maps).length = maps.length ∧
    ∀ (c : Nat) (m : FontMap), maps[c]? = some m → ∃ (v : Int) (u w g : Nat), (widths i.font i.font.cmap.chars maps)[c]? = some v ∧ CodeGlyph d m g ∧
      UnitsPerEm d u ∧ Advance d g w ∧ Rounded u w v := by
  refine ⟨by simp [widths], fun c m hm => ?_⟩
  have hp := load_font h
  have W := parseWidths_ok tags hp
  have P := Embed.parseFont_ok tags hp
  obtain ⟨hn0, hlt⟩ := glyphs _ P.glyphs
  have h0 := W.some hn0
  have key : ∀ g, g < i.font.nGlyphs → ∃ w, Advance d g w ∧ Rounded i.font.unitsPerEm w (scaled i.font (i.font.widths.getD g 0)) := by
    intro g hg
    obtain ⟨w, w1, w2⟩ := W.adv h0 g
    refine ⟨w, w2, ?_⟩
    rw [widths_padded hp hg h0, List.getD_eq_getElem?_getD, w1]
    have := round_near (1000 / (i.font.unitsPerEm : ℚ) * w)
    unfold Rounded scaled
    simp only [Option.getD_some]
    rw [show ((w : Int) : ℚ) * 1000 / ((i.font.unitsPerEm : Nat) : ℚ) = 1000 / (i.font.unitsPerEm : ℚ) * w by push_cast; ring]
    exact this
  obtain ⟨cm, cl, hT, hpc⟩ := P.cmap
  obtain ⟨off, sc, c1, c2, c3⟩ := chars_agree hpc
  have c3 := c3 (order _ _ _ _ hT c1 c2)
  have hin : ∀ r g, (r, g) ∈ i.font.cmap.chars → r < 0xFFFF ∧ Gives d r g := by
    intro r g hr
    obtain ⟨a, b, e⟩ := (c3 r g).1 hr
    have hle : r ≤ 0xFFFF := by
      obtain ⟨_, _, _, _, ⟨_, ⟨en, e1, e2⟩, _⟩, _⟩ := e
      have := U16_lt e1
      omega
    exact ⟨by omega, cm, cl, hT, .inl ⟨hle, off, sc, c1, c2, e⟩⟩
  have hout : ∀ r g, r < 0xFFFF → Gives d r g → g ≠ 0 → (r, g) ∈ i.font.cmap.chars := by
    rintro r g hr ⟨cm', cl', hT', ⟨hle, off', sc', r1, r2, r3⟩ | ⟨hlt, -⟩⟩ hg
    · obtain ⟨rfl, rfl⟩ := Embed.HasTable_fun tags hT hT'
      obtain rfl := cmap.one _ _ _ _ _ hT c1 r1
      obtain ⟨_, x, hx, rfl⟩ := c2
      obtain ⟨_, x', hx', rfl⟩ := r2
      obtain rfl := U16_fun hx hx'
      exact (c3 r g).2 ⟨by omega, hg, r3⟩
    · omega
  have hc : (widths i.font i.font.cmap.chars maps)[c]? = some (width i.font i.font.cmap.chars m) := by
    simp [widths, hm]
  unfold width at hc
  by_cases hnd : m.name ≠ lit ".notdef"
  · rw [if_pos hnd] at hc
    cases hf : i.font.cmap.chars.find? (fun p => (p.1 : Int) = m.uv) with
    | some p =>
      obtain ⟨r, g⟩ := p
      rw [hf] at hc
      have h1 := List.mem_of_find?_eq_some hf
      have h2 : (r : Int) = m.uv := by simpa using List.find?_some hf
      obtain ⟨k1, k2⟩ := hin r g h1
      obtain ⟨w, w1, w2⟩ := key g (hlt r g k2)
      exact ⟨_, _, w, g, hc, .inl ⟨hnd, r, k1, h2.symm, k2⟩, W.em, w1, w2⟩
    | none =>
      rw [hf] at hc
      rw [List.find?_eq_none] at hf
      obtain ⟨w, w1, w2⟩ := key 0 hn0
      refine ⟨_, _, w, 0, hc, .inr ⟨rfl, .inr fun r hr hu x hx => ?_⟩, W.em, w1, w2⟩
      by_contra hne
      exact hf _ (hout r x hr hx hne) (by simp [hu])
  · rw [if_neg hnd] at hc
    obtain ⟨w, w1, w2⟩ := key 0 hn0
    exact ⟨_, _, w, 0, hc, .inr ⟨rfl, .inl (by simpa using hnd)⟩, W.em, w1, w2⟩

/-- **C87** The width measured for a string of codes is that of the glyphs of their characters, at the size asked for, up to half a
thousandth of the size for each code. -/
theorem definition_measures {d : Bytes} {i : Info} (h : load d false = .ok i) (tags : DistinctTags d) (cmap : GoodCmap d) (order : InOrder d)
    (glyphs : ∀ n, NumGlyphs d n → 0 < n ∧ ∀ r g, Gives d r g → g < n) {maps : List FontMap} (hm : maps.length = 256)
    {size : ℚ} (hs : 0 ≤ size) (bs : Bytes) :
    ∃ (u : Nat) (ws : List Nat), UnitsPerEm d u ∧
      List.Forall₂ (fun (b : UInt8) w => ∃ m g, maps[b.toNat]? = some m ∧ CodeGlyph d m g ∧ Advance d g w) bs ws ∧
      |stringWidth (widths i.font i.font.cmap.chars maps) size bs - (ws.sum : Nat) * size / u| ≤ bs.length * size / 2000 := by
  obtain ⟨hl, hw⟩ := definition_widths h tags cmap order glyphs maps
  have hem := (parseWidths_ok tags (load_font h)).em
  refine ⟨i.font.unitsPerEm, ?_⟩
  induction bs with
  | nil => exact ⟨[], hem, .nil, by simp [stringWidth]⟩
  | cons b bs ih =>
    obtain ⟨ws, -, f, ih⟩ := ih
    have hb : b.toNat < maps.length := by rw [hm]; exact b.toNat_lt
    obtain ⟨v, u, w, g, v1, v2, v3, v4, v5⟩ := hw b.toNat _ (List.getElem?_eq_getElem hb)
    obtain rfl : u = i.font.unitsPerEm := by
      obtain ⟨p, l, a1, a2⟩ := v3
      obtain ⟨p', l', b1, b2⟩ := hem
      obtain ⟨rfl, rfl⟩ := Embed.HasTable_fun tags a1 b1
      exact U16_fun a2 b2
    refine ⟨w :: ws, hem, .cons ⟨_, g, List.getElem?_eq_getElem hb, v2, v4⟩ f, ?_⟩
    have hv : (widths i.font i.font.cmap.chars maps).getD b.toNat 0 = v := by rw [List.getD_eq_getElem?_getD, v1]; rfl
    unfold stringWidth at ih ⊢
    simp only [List.map_cons, List.sum_cons, hv, List.length_cons]
    generalize (bs.map fun b => (widths i.font i.font.cmap.chars maps).getD b.toNat 0).sum = S at ih ⊢
    generalize ws.sum = W at ih ⊢
    unfold Rounded at v5
    have h2 : |((w : Int) : ℚ) * 1000 / i.font.unitsPerEm - v| * (size / 1000) ≤ 1 / 2 * (size / 1000) :=
      mul_le_mul_of_nonneg_right v5 (by positivity)
    rw [← abs_of_nonneg (show 0 ≤ size / 1000 by positivity), ← abs_mul, abs_of_nonneg (show 0 ≤ size / 1000 by positivity)] at h2
    have h3 := abs_sub ((S : ℚ) * (size / 1000) - (W : ℚ) * size / i.font.unitsPerEm)
      ((((w : Int) : ℚ) * 1000 / i.font.unitsPerEm - v) * (size / 1000))
    push_cast at h2 h3 ih ⊢
    have key : ((v : ℚ) + S) * (size / 1000) - ((w : ℚ) + W) * size / i.font.unitsPerEm =
        ((S : ℚ) * (size / 1000) - W * size / i.font.unitsPerEm) - ((w : ℚ) * 1000 / i.font.unitsPerEm - v) * (size / 1000) := by ring
    rw [key]
    refine le_trans h3 (le_trans (add_le_add ih h2) (le_of_eq ?_))
    ring

end Verif.Props
