import Verif.Lemmas.Embed.Main
namespace Verif.Embed
open Verif.TTF Verif.CmapSpec Verif.FontFile

theorem tags_distinct : ∀ i < 9, ∀ j < 9, tags[i]? = tags[j]? → i = j := by decide

/-- The embedded file, table by table. -/
theorem embedded_tables {d : Bytes} {f : Font} {vals : List Nat} {e : Bytes} (hP : Parsed d f)
    (h : makeFont f vals = .ok e) (hlt : e.length < 2 ^ 32) :
    ∃ glyf loca, makeGlyfLoca f vals = .ok (glyf, loca) ∧ U16 e 4 9 ∧ ∃ off : Nat → Nat, off 0 = 156 ∧ off 9 = e.length ∧
      ∀ i < 9, ∃ tag sum len bs, tags[i]? = some tag ∧ EntryNo e i tag sum (off i) len ∧ off (i + 1) = off i + pad4 len ∧
        BytesAt e (off i) (pad4 len) bs ∧
        (tag = lit "glyf" → bs = glyf ∧ len = glyf.length ∧ sum = wordSum bs) ∧
        (tag = lit "loca" → bs = locaBytes f.shortIndex loca ∧ len = loca.length * (if f.shortIndex then 2 else 4) ∧
          sum = wordSum bs) ∧
        (tag ≠ lit "glyf" → tag ≠ lit "loca" →
          (∃ o, HasEntry d tag sum o len ∧ BytesAt d o (pad4 len) bs) ∨
          ((∀ o l, ¬ HasTable d tag o l) ∧ len = 0 ∧ sum = 0)) := by
  obtain ⟨glyf, loca, ps, hgl, hmap, hdata, hout⟩ := makeFont_layout h
  obtain ⟨_, _, _, _, _, hg4, _⟩ := makeGlyfLoca_spec hgl
  have hlen : ps.length = 9 := by
    have := congrArg List.length hmap
    rw [List.length_map] at this; exact this
  have ht : ∀ p ∈ ps, p.tag.length = 4 := by
    intro p hp
    have : p.tag ∈ tags := by rw [← hmap]; exact List.mem_map_of_mem hp
    revert this
    generalize p.tag = t
    revert t
    decide
  have h12 : (be32 0x00010000 ++ be16 9 ++ be16 128 ++ be16 3 ++ be16 16).length = 12 := by decide
  refine ⟨glyf, loca, hgl, ?_, pieceOffset 156 ps, by simp [pieceOffset], ?_, ?_⟩
  · apply U16_of_drop (rest := be16 128 ++ be16 3 ++ be16 16 ++ records 156 ps ++ (ps.map (·.data)).flatten) _ (by decide)
    rw [hout]
    simp only [List.append_assoc]
    rfl
  · rw [hout, List.length_append, List.length_append, h12, records_length ht, hlen, pieceOffset, List.take_of_length_le (by omega)]
  · intro i hi
    have hget : ps[i]? = some (ps[i]'(by omega)) := List.getElem?_eq_getElem _
    generalize ps[i]'(by omega) = p at hget
    have hmem := List.mem_of_getElem? hget
    obtain ⟨f1, f2, f3, f4, f5⟩ := piece_facts hP hg4 (hdata p hmem)
    obtain ⟨b1, b2⟩ := piece_bytes h12 hlen ht hout hget
    have hln : p.len < 2 ^ 32 := by
      have := b1.1; rw [f1, pad4] at this; omega
    refine ⟨p.tag, p.sum, p.len, p.data, ?_, piece_entry h12 ht hlen hout hlt hget f2 hln, ?_, ?_, ?_, ?_, ?_⟩
    · rw [← hmap, List.getElem?_map, hget]; rfl
    · rw [← b2, f1]
    · rw [← f1]; exact b1
    · intro hg; obtain ⟨a1, a2, a3⟩ := f3 hg; exact ⟨a1, a2, by rw [a1, a3]⟩
    · exact f4
    · intro h1 h2
      rcases f5 h1 h2 with h | ⟨g1, g2, _, g4⟩
      · exact .inl h
      · exact .inr ⟨g1, g2, g4⟩

theorem entryNo_table {e tag : Bytes} {i s o l : Nat} (h9 : U16 e 4 9) (hi : i < 9) (h : EntryNo e i tag s o l) :
    HasEntry e tag s o l := ⟨9, i, h9, hi, h.1, h.2.1, h.2.2.1, h.2.2.2⟩

theorem distinctTags_of {e : Bytes} (h9 : U16 e 4 9)
    (h : ∀ i < 9, ∃ tag s o l, tags[i]? = some tag ∧ EntryNo e i tag s o l) : DistinctTags e := by
  intro n i j hn hi hj heq
  have := U16_fun hn h9; subst this
  obtain ⟨t, _, _, _, ht, hE⟩ := h i hi
  obtain ⟨t', _, _, _, ht', hE'⟩ := h j hj
  apply tags_distinct i hi j hj
  rw [ht, ht', ← hE.1, ← hE'.1, heq]

theorem locaBytes_drop16 {loca : List Nat} {k x : Nat} (hk : loca[k]? = some x) :
    ∃ t, (locaBytes true loca).drop (2 * k) = be16 (x / 2) ++ t := by
  obtain ⟨t, ht⟩ := flatMap_be16_drop (· / 2) loca k x hk
  unfold locaBytes
  simp only [if_true]
  exact ⟨_, drop_append_more ht _ (be16_ne _)⟩

theorem locaBytes_drop32 {loca : List Nat} {k x : Nat} (hk : loca[k]? = some x) :
    ∃ t, (locaBytes false loca).drop (4 * k) = be32 x ++ t := by
  obtain ⟨t, ht⟩ := flatMap_be32_drop loca k x hk
  unfold locaBytes
  simp only [Bool.false_eq_true, if_false]
  exact ⟨_, drop_append_more ht _ (be32_ne _)⟩

/-- The new file's loca entries and outlines. -/
theorem embedded_outlines {d : Bytes} {f : Font} {vals : List Nat} {e : Bytes} (hW : WellFormed d)
    (hP : Parsed d f) (h : makeFont f vals = .ok e) (hlt : e.length < 2 ^ 32) :
    DistinctTags e ∧ NumGlyphs e f.nGlyphs ∧
    ∃ go gl arr, HasTable e (lit "glyf") go gl ∧ go + gl ≤ e.length ∧ closure f vals = .ok arr ∧
      Loca e 0 0 ∧
      ∀ k < f.nGlyphs, ∃ x y, Loca e k x ∧ Loca e (k + 1) y ∧ x ≤ y ∧ y ≤ gl ∧
        (k ∈ arr → ∃ o, glyphData f k = .ok o ∧ BytesAt e (go + x) (y - x) o) ∧
        (k ∉ arr → x = y) := by
  obtain ⟨glyf, loca, hgl, h9, off, h0, h9', htab⟩ := embedded_tables hP h hlt
  have hD : DistinctTags e := distinctTags_of h9 (fun i hi => by
    obtain ⟨t, s, l, _, ht, hE, _⟩ := htab i hi; exact ⟨t, s, _, l, ht, hE⟩)
  obtain ⟨arr, b, kz, hcl, hglyf, hg4, l1, l2, l3, l4⟩ := makeGlyfLoca_spec hgl
  -- head
  obtain ⟨tg, sh, lh, bh, htg, hEh, -, hBh, -, -, hch⟩ := htab 3 (by decide)
  have : tg = lit "head" := by
    have : tags[3]? = some (lit "head") := by decide
    rw [this] at htg; exact (Option.some.inj htg).symm
  subst this
  obtain ⟨oh, hhE, hhB⟩ : ∃ o, HasEntry d (lit "head") sh o lh ∧ BytesAt d o (pad4 lh) bh := by
    rcases hch (by decide) (by decide) with hx | ⟨hno, _⟩
    · exact hx
    · obtain ⟨ho, hl, _, hT, _⟩ := hP.head; exact (hno _ _ hT).elim
  obtain ⟨ho, hl, x50, hT, hx50, hiff⟩ := hP.head
  obtain ⟨rfl, rfl⟩ := HasTable_fun hW.tags (table_of hhE) hT
  have h54 := hW.head _ _ hT
  have hx50' : U16 e (off 3 + 50) x50 := U16_copy hhB hBh (by unfold pad4; omega) hx50
  have hTe := table_of (entryNo_table h9 (by decide) hEh)
  -- maxp
  obtain ⟨tg, sm, lm, bm, htg, hEm, -, hBm, -, -, hcm⟩ := htab 7 (by decide)
  have : tg = lit "maxp" := by
    have : tags[7]? = some (lit "maxp") := by decide
    rw [this] at htg; exact (Option.some.inj htg).symm
  subst this
  obtain ⟨om, hmE, hmB⟩ : ∃ o, HasEntry d (lit "maxp") sm o lm ∧ BytesAt d o (pad4 lm) bm := by
    rcases hcm (by decide) (by decide) with hx | ⟨hno, _⟩
    · exact hx
    · obtain ⟨ho, hl, hT', _⟩ := hP.glyphs; exact (hno _ _ hT').elim
  have hNG : NumGlyphs e f.nGlyphs := by
    obtain ⟨mo, ml, hT', hn⟩ := hP.glyphs
    obtain ⟨rfl, rfl⟩ := HasTable_fun hW.tags (table_of hmE) hT'
    have := hW.maxp _ _ hT'
    exact ⟨off 7, lm, table_of (entryNo_table h9 (by decide) hEm), U16_copy hmB hBm (by unfold pad4; omega) hn⟩
  -- glyf
  obtain ⟨tg, sg, lg, bg, htg, hEg, -, hBg, hcg, -, -⟩ := htab 2 (by decide)
  have : tg = lit "glyf" := by
    have : tags[2]? = some (lit "glyf") := by decide
    rw [this] at htg; exact (Option.some.inj htg).symm
  subst this
  obtain ⟨rfl, rfl, -⟩ := hcg rfl
  have hTg := table_of (entryNo_table h9 (by decide) hEg)
  have hpg : pad4 bg.length = bg.length := by unfold pad4; omega
  rw [hpg] at hBg
  -- loca
  obtain ⟨tg, sl, ll, bl, htg, hEl, -, hBl, -, hcl', -⟩ := htab 6 (by decide)
  have : tg = lit "loca" := by
    have : tags[6]? = some (lit "loca") := by decide
    rw [this] at htg; exact (Option.some.inj htg).symm
  subst this
  obtain ⟨rfl, rfl, -⟩ := hcl' rfl
  have hTl := table_of (entryNo_table h9 (by decide) hEl)
  -- entries bounded by those of the source
  have hbound := loca_bound (f := f) l2 l4
    (fun g hg => by obtain ⟨a, ha⟩ := hW.entries _ hP.glyphs g hg; exact ⟨a, (hP.loca _ _).2 ha⟩)
    (fun g a b ha hb => hW.ascending g a b ((hP.loca _ _).1 ha) ((hP.loca _ _).1 hb))
  have hLoca : ∀ (k x : Nat), loca[k]? = some x → Loca e k x := by
    intro k x hk
    have hklt : k < loca.length := (List.getElem?_eq_some_iff.1 hk).1
    obtain ⟨x', a, hx', ha, hxa, hev⟩ := hbound k (by omega)
    rw [hk] at hx'; cases hx'
    refine ⟨off 6, _, hTl, ?_⟩
    have haL := (hP.loca _ _).1 ha
    cases hs : f.shortIndex with
    | true =>
      have hS : ShortLoca d := ⟨oh, lh, hT, by rw [← hiff.1 hs]; exact hx50⟩
      have hnL : ¬ LongLoca d := by
        rintro ⟨a1, a2, y, a3, a4, a5⟩
        obtain ⟨rfl, rfl⟩ := HasTable_fun hW.tags a3 hT
        exact a5 ((U16_fun a4 hx50).trans (hiff.1 hs))
      have heven : x % 2 = 0 := hev (fun g c hc => by
        obtain ⟨_, _, _, hcase⟩ := (hP.loca _ _).1 hc
        rcases hcase with ⟨_, _, y, _, rfl⟩ | ⟨hL, _⟩
        · omega
        · exact (hnL hL).elim)
      have ha16 : a < 2 ^ 17 := by
        obtain ⟨_, _, _, hcase⟩ := haL
        rcases hcase with ⟨_, _, y, hy, rfl⟩ | ⟨hL, _⟩
        · have := U16_lt hy; omega
        · exact (hnL hL).elim
      simp only [hs, if_true] at hBl ⊢
      obtain ⟨t', hb⟩ := locaBytes_drop16 hk
      obtain ⟨r, hr⟩ := drop_drop_some hBl hb (be16_ne _)
      refine .inl ⟨⟨off 3, lh, hTe, by rw [← hiff.1 hs]; exact hx50'⟩, by omega, x / 2, U16_of_drop hr (by omega), by omega⟩
    | false =>
      have hne : x50 ≠ 0 := fun hz => by rw [hiff.2 hz] at hs; cases hs
      simp only [hs, Bool.false_eq_true, if_false] at hBl ⊢
      have hL : LongLoca d := ⟨oh, lh, x50, hT, hx50, hne⟩
      have ha32 : a < 2 ^ 32 := by
        obtain ⟨_, _, _, hcase⟩ := haL
        rcases hcase with ⟨hS, _⟩ | ⟨_, _, h32⟩
        · obtain ⟨a1, a2, a3, a4⟩ := hS
          obtain ⟨rfl, rfl⟩ := HasTable_fun hW.tags a3 hT
          exact (hne (U16_fun hx50 a4)).elim
        · exact U32_lt h32
      obtain ⟨t', hb⟩ := locaBytes_drop32 hk
      obtain ⟨r, hr⟩ := drop_drop_some hBl hb (be32_ne _)
      refine .inr ⟨⟨off 3, lh, x50, hTe, hx50', hne⟩, by omega, U32_of_drop hr (by omega)⟩
  refine ⟨hD, hNG, off 2, bg.length, arr, hTg, hBg.1, hcl, hLoca 0 0 l2, ?_⟩
  intro k hk
  obtain ⟨x, y, j1, j2, j3, j4, j5, j6⟩ := l4 k hk
  have hyl : y ≤ bg.length := by rw [hglyf]; simp; omega
  refine ⟨x, y, hLoca k x j1, hLoca (k + 1) y j2, j3, hyl, ?_, j6⟩
  intro hm
  refine ⟨_, j5 hm, ?_⟩
  have := BytesAt_sub (k := x) (m := y - x) hBg (by omega)
  have e1 : (bg.drop x).take (y - x) = (b.drop x).take (y - x) := by
    rw [hglyf, List.drop_append_of_le_length (by omega), List.take_append_of_le_length (by simp; omega)]
  rwa [e1] at this

end Verif.Embed
