import Verif.Lemmas.FontMakerDesc
import Verif.Props.FontMaker
import Verif.Lemmas.Embed.Accept
/-
The font descriptor of a font definition made by `fontmaker` (property C87).
-/
namespace Verif.Props
open Verif.FontMaker Verif.PdfObject Verif.Encoding
open Verif.TTF Verif.CmapSpec Verif.FontFile Verif.Typeset

/-- An unsigned 32-bit number of a table. -/
def Unsigned32 (d : Bytes) (tag : String) (off v : Nat) : Prop := ∃ p l, HasTable d (lit tag) p l ∧ U32 d (p + off) v

/-- The font file does not forbid embedding, as `fontmaker` understands the field `fsType` of `OS/2`: it is not 2 (restricted
licence), and bit 9 (bitmaps only) is not set. -/
def MayEmbed (d : Bytes) : Prop := ∃ t, Unsigned d "OS/2" 8 t ∧ t ≠ 2 ∧ t.testBit 9 = false

/-- A font descriptor (ISO 32000-1, Table 122) describes the font file: typographical ascent and descent (`OS/2`), height of capitals
(`OS/2` from version 2 on, else the ascender of `hhea`), bounding box (`head`), italic angle (integer part, `post`), the width of
glyph 0; the flags monospaced (`post`), nonsymbolic, and italic; a stem width that tells bold (`OS/2`) from regular. -/
def DescribesFont (v : Val) (d : Bytes) : Prop :=
  ∃ u, UnitsPerEm d u ∧
    (∃ t, Metric d "OS/2" 68 t ∧ Typeset.Entry v "Ascent" u t) ∧
    (∃ t, Metric d "OS/2" 70 t ∧ Typeset.Entry v "Descent" u t) ∧
    (∃ ver c, Unsigned d "OS/2" 0 ver ∧ (if 2 ≤ ver then Metric d "OS/2" 88 c else Metric d "hhea" 4 c) ∧ Typeset.Entry v "CapHeight" u c) ∧
    (∃ x0 y0 x1 y1, Metric d "head" 36 x0 ∧ Metric d "head" 38 y0 ∧ Metric d "head" 40 x1 ∧ Metric d "head" 42 y1 ∧
      ∃ a b c e : Int, v.get (lit "FontBBox") = some (.arr [.num a, .num b, .num c, .num e]) ∧
        Rounded u x0 a ∧ Rounded u y0 b ∧ Rounded u x1 c ∧ Rounded u y1 e) ∧
    (∃ w : Nat, Advance d 0 w ∧ Typeset.Entry v "MissingWidth" u w) ∧
    (∃ z p, Metric d "post" 4 z ∧ v.get (lit "ItalicAngle") = some (.num z) ∧ Unsigned32 d "post" 12 p ∧
      ∃ flags : Nat, v.get (lit "Flags") = some (.num flags) ∧
        ∀ b, flags.testBit b = true ↔ (b = 0 ∧ p ≠ 0) ∨ b = 5 ∨ (b = 6 ∧ z ≠ 0)) ∧
    (∃ s, Unsigned d "OS/2" 62 s ∧ v.get (lit "StemV") = some (.num (if s.testBit 5 then 120 else 70 : Int)))

theorem scaledInt_rounded (f : Font) (v : Int) : Rounded f.unitsPerEm v (scaledInt f v) := by
  have := round_near (1000 / (f.unitsPerEm : ℚ) * v)
  unfold Rounded scaledInt
  rw [show (v : ℚ) * 1000 / ((f.unitsPerEm : Nat) : ℚ) = 1000 / (f.unitsPerEm : ℚ) * v by ring]
  exact this

theorem bit_div (t k : Nat) : t.testBit k = decide (t / 2 ^ k % 2 = 1) := by
  rw [Nat.testBit_eq_decide_div_mod_eq]

/-- The flags, bit by bit. -/
theorem flags_bits (x : Definition) : ∃ n : Nat, x.flags = (n : Int) ∧
    ∀ b, n.testBit b = true ↔ (b = 0 ∧ x.fixedPitch = true) ∨ b = 5 ∨ (b = 6 ∧ x.italicAngle ≠ 0) := by
  have key : ∀ fx it : Bool, ∀ b < 7, ((if fx = true then 1 else 0) + 32 + (if it = true then 64 else 0) : Nat).testBit b =
      decide ((b = 0 ∧ fx = true) ∨ b = 5 ∨ (b = 6 ∧ it = true)) := by decide
  refine ⟨(if x.fixedPitch = true then 1 else 0) + 32 + (if decide (x.italicAngle ≠ 0) = true then 64 else 0), ?_, fun b => ?_⟩
  · unfold Definition.flags
    simp only [decide_eq_true_eq]
    split <;> split <;> simp
  · by_cases hb : b < 7
    · rw [key _ _ b hb]; simp
    · have h2 : 128 ≤ 2 ^ b := by
        calc 128 = 2 ^ 7 := rfl
          _ ≤ 2 ^ b := Nat.pow_le_pow_right (by decide) (by omega)
      rw [Nat.testBit_lt_two_pow (lt_of_lt_of_le (by split <;> split <;> decide) h2)]
      constructor
      · intro h; cases h
      · omega

theorem getInfo_ok {d : Bytes} {maps : List FontMap} {x : Definition} (h : getInfo d maps = .ok x) :
    ∃ (i : Info) (bold fixed : Bool), load d false = .ok i ∧ facts d i.font.tables = .ok (true, bold, fixed) ∧
      x = ⟨bold, fixed, i.italicAngle, scaledInt i.font i.os2.typoAscender, scaledInt i.font i.os2.typoDescender,
        scaledInt i.font i.os2.capHeight, (scaledInt i.font i.box.1, scaledInt i.font i.box.2.1, scaledInt i.font i.box.2.2.1,
        scaledInt i.font i.box.2.2.2), scaled i.font (i.font.widths.getD 0 0), widths i.font i.font.cmap.chars maps⟩ := by
  unfold getInfo at h
  simp only [bind_ok] at h
  obtain ⟨i, h1, ⟨e, bold, fixed⟩, h2, h⟩ := h
  cases e
  · simp only [if_true, bind_ok, throw_ne, false_and, exists_false] at h
  · simp only [bind_ok, pure_ok, Bool.true_eq_false, if_false] at h
    obtain ⟨_, _, rfl⟩ := h
    exact ⟨i, bold, fixed, h1, h2, rfl⟩

theorem facts_ok {d : Bytes} {f : Font} (tags : DistinctTags d) (h : parseFont d = .ok f) {e b x : Bool} (hf : facts d f.tables = .ok (e, b, x)) :
    (∃ t, Unsigned d "OS/2" 8 t ∧ (e = true ↔ t ≠ 2 ∧ t.testBit 9 = false)) ∧ (∃ s, Unsigned d "OS/2" 62 s ∧ b = s.testBit 5) ∧
      ∃ p, Unsigned32 d "post" 12 p ∧ (x = true ↔ p ≠ 0) := by
  have P := Embed.parseFont_ok tags h
  unfold facts at hf
  simp only [bind_ok, pure_ok, Prod.mk.injEq] at hf
  obtain ⟨p, hp, t, ht, s, hs, q, hq, k, hk, rfl, rfl, rfl⟩ := hf
  obtain ⟨t1, ht1, rfl⟩ := Embed.seek_ok hp
  obtain ⟨t2, ht2, rfl⟩ := Embed.seek_ok hq
  have e1 := Embed.table_of ((P.table _ _).1 ht1)
  have e2 := Embed.table_of ((P.table _ _).1 ht2)
  refine ⟨⟨t, ⟨_, _, e1, u16_ok.1 ht⟩, ?_⟩, ⟨s, ⟨_, _, e1, u16_ok.1 hs⟩, ?_⟩, k, ⟨_, _, e2, u32_ok.1 hk⟩, by simp⟩
  · rw [bit_div]; simp
  · rw [bit_div]; rfl

/-- **C87** A definition is made only of a font whose file does not forbid embedding.  Its widths are those of `definition_widths`, and
the font descriptor written for it reads back as a description of the font file.  For every well-formed font file, every table of
codes. -/
theorem definition_describes {d : Bytes} {maps : List FontMap} {x : Definition} (h : getInfo d maps = .ok x) (tags : DistinctTags d)
    (glyphs : ∀ n, NumGlyphs d n → 0 < n) :
    MayEmbed d ∧ (∃ i, load d false = .ok i ∧ x.widths = widths i.font i.font.cmap.chars maps) ∧
    ∀ (name : Bytes) (file : Nat) (rest : Bytes), GlyphName name →
      ∃ v, readObject (fontDescriptorObj name x.items file ++ (lit "endobj\n" ++ rest)) = some (v, none) ∧
        v.get (lit "Type") = some (.name (lit "FontDescriptor")) ∧ v.get (lit "FontName") = some (.name name) ∧
        v.get (lit "FontFile2") = some (.ref file) ∧ DescribesFont v d := by
  obtain ⟨i, bold, fixed, h1, h2, rfl⟩ := getInfo_ok h
  have hp := load_font h1
  have P := load_ok tags h1
  have W := parseWidths_ok tags hp
  have PF := Embed.parseFont_ok tags hp
  have hn0 := glyphs _ PF.glyphs
  have h0 := W.some hn0
  obtain ⟨⟨t, t1, t2⟩, ⟨s, s1, s2⟩, p, p1, p2⟩ := facts_ok tags hp h2
  refine ⟨⟨t, t1, t2.1 rfl⟩, ⟨i, h1, rfl⟩, fun name file rest hname => ?_⟩
  refine ⟨_, read_plain' (descriptor_value (nameChars hname) _ file), rfl, rfl, rfl, ?_⟩
  have rd := fun v => scaledInt_rounded i.font v
  refine ⟨_, P.em, ⟨_, P.typoAsc, _, rfl, rd _⟩, ⟨_, P.typoDesc, _, rfl, rd _⟩, ⟨_, _, P.version, P.cap, _, rfl, rd _⟩,
    ⟨_, _, _, _, P.box.1, P.box.2.1, P.box.2.2.1, P.box.2.2.2, _, _, _, _, rfl, rd _, rd _, rd _, rd _⟩, ?_, ?_, ?_⟩
  · obtain ⟨w, w1, w2⟩ := W.adv h0 0
    refine ⟨w, w2, _, rfl, ?_⟩
    have := rd w
    rw [Nat.zero_min] at w1
    simp only [List.getD_eq_getElem?_getD, w1, Option.getD_some]
    exact this
  · obtain ⟨n, n1, n2⟩ := flags_bits ⟨bold, fixed, i.italicAngle, scaledInt i.font i.os2.typoAscender, scaledInt i.font i.os2.typoDescender,
        scaledInt i.font i.os2.capHeight, (scaledInt i.font i.box.1, scaledInt i.font i.box.2.1, scaledInt i.font i.box.2.2.1,
        scaledInt i.font i.box.2.2.2), scaled i.font (i.font.widths.getD 0 0), widths i.font i.font.cmap.chars maps⟩
    refine ⟨_, p, P.angle, rfl, p1, n, ?_, fun b => ?_⟩
    · have : ((n : Int) : ℚ) = (n : ℚ) := by push_cast; rfl
      rw [← this, ← n1]; rfl
    · rw [n2 b, p2]
  · refine ⟨s, s1, ?_⟩
    rw [← s2]; rfl

theorem facts_total {d : Bytes} {k : Bool} {i : Info} (h : load d k = .ok i) : ∃ r, facts d i.font.tables = .ok r := by
  unfold load at h
  simp only [bind_ok] at h
  obtain ⟨f, hf, box, _, name, _, os2, hos, ⟨a, b, c⟩, hpost, h⟩ := h
  have hi : i.font = f := by
    cases k
    · simp only [bind_ok, pure_ok, Bool.false_eq_true, if_false] at h
      obtain ⟨_, _, rfl⟩ := h; rfl
    · simp only [bind_ok, pure_ok, if_true] at h
      obtain ⟨_, _, rfl⟩ := h; rfl
  rw [hi]
  unfold parsePost at hpost
  simp only [bind_ok] at hpost
  obtain ⟨q, hq, _, _, _, _, _, _, x, hx, _⟩ := hpost
  unfold parseOS2 at hos
  simp only [bind_ok] at hos
  obtain ⟨p, hp, _, _, t, ht, s, hs, _⟩ := hos
  unfold facts
  simp only [bind_ok, pure_ok]
  exact ⟨_, p, hp, t, ht, s, hs, q, hq, x, hx, rfl⟩

/-- **C87** A definition is made exactly of the font files that are complete (as `AddTTFFont` wants them without kerning, C77) and that
do not forbid embedding, for every table of codes.  The directory has no tag twice; the file is shorter than 2^62 bytes. -/
theorem definition_made_iff {d : Bytes} (hsize : d.length < 2 ^ 62) (tags : DistinctTags d) (maps : List FontMap) :
    (∃ x, getInfo d maps = .ok x) ↔ Acceptable d false ∧ MayEmbed d := by
  have hok : Acceptable d false ↔ ∃ i, load d false = .ok i := by
    rw [← Embed.ok_load hsize tags]
    unfold Embed.Ok
    rfl
  rw [hok]
  constructor
  · rintro ⟨x, h⟩
    obtain ⟨i, bold, fixed, h1, h2, -⟩ := getInfo_ok h
    obtain ⟨⟨t, t1, t2⟩, -⟩ := facts_ok tags (load_font h1) h2
    exact ⟨⟨i, h1⟩, t, t1, t2.1 rfl⟩
  · rintro ⟨⟨i, h1⟩, t', ⟨p', l', a1, a2⟩, t3⟩
    obtain ⟨⟨e, bold, fixed⟩, h2⟩ := facts_total h1
    obtain ⟨⟨t, ⟨p, l, b1, b2⟩, t2⟩, -⟩ := facts_ok tags (load_font h1) h2
    obtain ⟨rfl, rfl⟩ := Embed.HasTable_fun tags a1 b1
    obtain rfl := U16_fun a2 b2
    obtain rfl : e = true := t2.2 t3
    unfold getInfo
    simp only [h1, bind, Except.bind, h2]
    exact ⟨_, rfl⟩

end Verif.Props
