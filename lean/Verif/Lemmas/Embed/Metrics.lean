import Verif.Lemmas.Embed.Source
import Verif.Props.Cmap
import Verif.Props.CharMap
import Verif.Spec.Typeset
/- Widths and glyphs of a parsed font, in terms of its file. -/
namespace Verif.Typeset
open TTF CmapSpec FontFile Embed

/-! ### Widths -/

theorem hmtxWidths_ok {d : Bytes} : ∀ {k p : Nat} {l : List Nat}, hmtxWidths d p k = .ok l →
    l.length = k ∧ ∀ (i : Nat) w, l[i]? = some w → U16 d (p + 4 * i) w := by
  intro k
  induction k with
  | zero => intro p l h; simp [hmtxWidths] at h; subst h; simp
  | succ k ih =>
    intro p l h
    simp only [hmtxWidths, bind_ok, pure_ok] at h
    obtain ⟨x, hx, xs, hxs, rfl⟩ := h
    obtain ⟨h1, h2⟩ := ih hxs
    refine ⟨by simp [h1], ?_⟩
    intro i y hy
    cases i with
    | zero => simp at hy; subst hy; exact u16_ok.1 hx
    | succ i =>
      have := h2 i y (by simpa using hy)
      rwa [show p + 4 + 4 * i = p + 4 * (i + 1) by omega] at this

theorem parseHmtx_ok {d : Bytes} {ts : List (Bytes × Table)} {n k : Nat} {ws : List Nat} (h : parseHmtx d ts n k = .ok ws) :
    ∃ p, seek ts "hmtx" = .ok p ∧ ∀ i < n, ∃ w, ws[i]? = some w ∧ U16 d (p + 4 * i) w := by
  unfold parseHmtx at h
  simp only [bind_ok] at h
  obtain ⟨p, hp, l, hl, h⟩ := h
  obtain ⟨h1, h2⟩ := hmtxWidths_ok hl
  refine ⟨p, hp, fun i hi => ?_⟩
  have hli : l[i]? = some (l[i]'(by omega)) := List.getElem?_eq_getElem _
  split at h
  · next hlt =>
    cases n with
    | zero => simp only [throw_ne] at h
    | succ n =>
      simp only [pure_ok] at h
      subst h
      refine ⟨_, ?_, h2 i _ hli⟩
      rw [arrayPad, List.getElem?_map, List.getElem?_range (by omega), Option.map_some, List.getD_eq_getElem?_getD, hli]
      rfl
  · simp only [pure_ok] at h
    subst h
    exact ⟨_, hli, h2 i _ hli⟩

/-- The numbers for widths, in terms of the file. -/
structure ParsedWidths (d : Bytes) (f : Font) : Prop where
  em : UnitsPerEm d f.unitsPerEm
  adv : 0 < f.nHMetrics → ∀ g, ∃ w, f.widths[min g (f.nHMetrics - 1)]? = some w ∧ Advance d g w
  some : 0 < f.nGlyphs → 0 < f.nHMetrics

theorem parseWidths_ok {d : Bytes} {f : Font} (hd : DistinctTags d) (h : parseFont d = .ok f) : ParsedWidths d f := by
  unfold parseFont at h
  split at h
  · simp only [bind_ok, throw_ne, false_and, exists_false] at h
  simp only [bind_ok, pure_ok] at h
  obtain ⟨n, hn, ts, hts, ⟨upem, fmt⟩, hhead, ⟨asc, desc, nHM⟩, hhhea, nG, hmaxp, ws, hws, cm, hcm, loca, hloca, rfl⟩ := h
  have htab := tableOf_iff (u16_ok.1 hn) hd hts
  refine ⟨?_, ?_, ?_⟩
  · unfold parseHead at hhead
    simp only [bind_ok] at hhead
    obtain ⟨p, hp, magic, hm, hhead⟩ := hhead
    split at hhead
    · simp only [bind_ok, throw_ne, false_and, exists_false] at hhead
    simp only [bind_ok, pure_ok, Prod.mk.injEq] at hhead
    obtain ⟨u, hu, _, _, _, _, _, _, _, _, v, hv, rfl, -⟩ := hhead
    obtain ⟨t, ht, rfl⟩ := seek_ok hp
    exact ⟨t.offset, t.length, table_of ((htab _ _).1 ht), u16_ok.1 hu⟩
  · intro h0 g
    simp only at h0 ⊢
    unfold parseHhea at hhhea
    simp only [bind_ok, pure_ok, Prod.mk.injEq] at hhhea
    obtain ⟨p, hp, _, _, _, _, k, hk, -, -, rfl⟩ := hhhea
    obtain ⟨t, ht, rfl⟩ := seek_ok hp
    obtain ⟨q, hq, hall⟩ := parseHmtx_ok hws
    obtain ⟨t', ht', rfl⟩ := seek_ok hq
    obtain ⟨w, w1, w2⟩ := hall (min g (k - 1)) (by simp only; omega)
    exact ⟨w, w1, t.offset, t.length, t'.offset, t'.length, k, table_of ((htab _ _).1 ht), u16_ok.1 hk, h0, table_of ((htab _ _).1 ht'), w2⟩
  · intro h0
    simp only at h0 ⊢
    rcases Nat.eq_zero_or_pos nHM with rfl | h
    · unfold parseHmtx at hws
      simp only [bind_ok] at hws
      obtain ⟨_, _, _, _, hws⟩ := hws
      rw [if_pos h0] at hws
      simp only [throw_ne] at hws
    · exact h

theorem load_font {d : Bytes} {k : Bool} {i : Info} (h : load d k = .ok i) : parseFont d = .ok i.font := by
  unfold load at h
  simp only [bind_ok] at h
  obtain ⟨f, hf, box, _, name, _, os2, _, ⟨a, b, c⟩, _, h⟩ := h
  have : i.font = f := by
    cases k
    · simp only [bind_ok, pure_ok, Bool.false_eq_true, if_false] at h
      obtain ⟨_, _, rfl⟩ := h; rfl
    · simp only [bind_ok, pure_ok, if_true] at h
      obtain ⟨_, _, rfl⟩ := h; rfl
  rw [this]; exact hf

theorem glyphWidth_of {f : TextRun.RunFont} {g w : Nat} (h0 : f.nHMetrics ≠ 0) (hw : f.widths[min g (f.nHMetrics - 1)]? = some w) (hu : f.unitsPerEm ≠ 0) :
    TextRun.glyphWidth f g = .ok (w * 1000 / f.unitsPerEm) := by
  have hmin : (if g ≥ f.nHMetrics then f.nHMetrics - 1 else g) = min g (f.nHMetrics - 1) := by split <;> omega
  simp only [TextRun.glyphWidth, hmin, hw]
  rw [if_neg h0]
  by_cases h1 : f.unitsPerEm = 1000
  · rw [if_pos h1, h1]; simp
  · rw [if_neg h1, if_neg hu]

/-- The width written for a glyph. -/
theorem glyphWidth_ok {l : Loaded} (hf : GoodFace l.face) (hl : load l.face.file l.face.useKerning = .ok l.info) (g : Nat) :
    ∃ w, TextRun.glyphWidth l.font.run g = .ok w ∧ PdfWidth l.face.file g w := by
  have hp := load_font hl
  have W := parseWidths_ok hf.file.tags hp
  have P := parseFont_ok hf.file.tags hp
  have h0 := W.some (hf.glyphs _ P.glyphs).1
  obtain ⟨w, w1, w2⟩ := W.adv h0 g
  have hu := hf.em _ W.em
  exact ⟨w * 1000 / l.info.font.unitsPerEm, glyphWidth_of (f := l.font.run) (by simp only [Loaded.font]; omega) w1 hu, _, w, W.em, w2, rfl⟩

/-! ### Glyphs -/

theorem gives_cases {d : Bytes} {f : Font} (hd : DistinctTags d) (hc : GoodCmap d) (h : parseFont d = .ok f) (r : Nat) :
    (∃ g, glyphOf f.cmap r = .ok g ∧ Gives d r g) ∨ (glyphOf f.cmap r = .error .notFound ∧ ∀ g, ¬ Gives d r g) := by
  obtain ⟨cm, cl, hT, hp⟩ := (parseFont_ok hd h).cmap
  by_cases hr : r ≤ 0xFFFF
  · obtain ⟨off, sc, h1, h2, h3⟩ := Props.cmap_lookup_bmp hp
    rcases h3 (hc.format4 _ _ _ _ hT h1 h2) r hr with ⟨g, g1, g2⟩ | ⟨g1, g2⟩
    · exact .inl ⟨g, g1, cm, cl, hT, .inl ⟨hr, off, sc, h1, h2, g2⟩⟩
    · refine .inr ⟨g1, ?_⟩
      rintro g ⟨cm', cl', hT', ⟨-, off', sc', r1, r2, r3⟩ | ⟨hlt, -⟩⟩
      · obtain ⟨rfl, rfl⟩ := HasTable_fun hd hT hT'
        obtain rfl := hc.one _ _ _ _ _ hT h1 r1
        obtain ⟨_, x, hx, rfl⟩ := h2
        obtain ⟨_, x', hx', rfl⟩ := r2
        obtain rfl := U16_fun hx hx'
        exact Props.maps4_not_unmapped r3 g2
      · omega
  · have hr : 0xFFFF < r := by omega
    obtain ⟨s1, s2⟩ := Props.cmap_lookup_supplementary hp
    by_cases hex : ∃ off, HasRecord d cm 3 10 off
    · obtain ⟨off, n, h1, h2, h3, h4⟩ := s2 hex
      rcases h4 r hr with ⟨g, g1, g2⟩ | ⟨g1, g2⟩
      · exact .inl ⟨g, g1, cm, cl, hT, .inr ⟨hr, off, n, h1, h2, h3, g2⟩⟩
      · refine .inr ⟨g1, ?_⟩
        rintro g ⟨cm', cl', hT', ⟨hle, -⟩ | ⟨-, off', n', r1, r2, r3, r4⟩⟩
        · omega
        · obtain ⟨rfl, rfl⟩ := HasTable_fun hd hT hT'
          obtain rfl := hc.one _ _ _ _ _ hT h1 r1
          obtain rfl := U32_fun h3 r3
          exact g2 ⟨g, r4⟩
    · refine .inr ⟨s1 hex r hr, ?_⟩
      rintro g ⟨cm', cl', hT', ⟨hle, -⟩ | ⟨-, off', n', r1, -⟩⟩
      · omega
      · obtain ⟨rfl, rfl⟩ := HasTable_fun hd hT hT'
        exact hex ⟨off', r1⟩

/-- With a substitute that is its own substitute: the glyphs of a map are the font's own, or 0 for a substitute the font does not
have. -/
def MapGlyphs (s : CharSource) (f : Nat → Nat) (m : CharMap) : Prop :=
  ∀ k g, m.val k = some g → glyphOf s.cmap k = .ok g ∨ (g = 0 ∧ (∀ x, glyphOf s.cmap k ≠ .ok x) ∧ f k = k)

theorem addChar_glyphs {s : CharSource} {f : Nat → Nat} (hs : s.subst = some f) (hf : ∀ r, f (f r) = f r) {m m' : CharMap} {r r' : Nat}
    (hi : Props.MapInv s m) (hg : MapGlyphs s f m) (h : addChar s m r = .ok (m', r')) : MapGlyphs s f m' := by
  have set : ∀ k v, (glyphOf s.cmap k = .ok v ∨ (v = 0 ∧ (∀ x, glyphOf s.cmap k ≠ .ok x) ∧ f k = k)) → MapGlyphs s f (m.set k v) := by
    intro k v hv k' g hk
    by_cases e : k = k'
    · subst e
      rw [Props.val_set_self hi] at hk
      cases hk; exact hv
    · rw [Props.val_set_ne hi v e] at hk
      exact hg k' g hk
  unfold addChar at h
  split at h
  · cases h; exact hg
  · split at h
    · next g hgl => cases h; exact set _ _ (.inl hgl)
    · next hnf =>
      unfold replaceMissing at h
      simp only [hs] at h
      by_cases hk : m.keyExists (f r) = true
      · rw [if_pos hk] at h; cases h; exact hg
      · rw [if_neg hk] at h
        cases hgl : glyphOf s.cmap (f r) with
        | ok g => simp only [hgl] at h; cases h; exact set _ _ (.inl hgl)
        | error er =>
          simp only [hgl] at h
          cases er with
          | panic => cases h
          | notFound => cases h; exact set _ _ (.inr ⟨rfl, (fun x hx => by rw [hgl] at hx; cases hx), hf r⟩)
          | err => cases h; exact set _ _ (.inr ⟨rfl, (fun x hx => by rw [hgl] at hx; cases hx), hf r⟩)
    · cases h

theorem addChars_glyphs {s : CharSource} {f : Nat → Nat} (hs : s.subst = some f) (hf : ∀ r, f (f r) = f r) : ∀ (t : List Nat) {m : CharMap},
    Props.MapInv s m → MapGlyphs s f m → MapGlyphs s f (addChars s m t).1
  | [], m, _, hg => hg
  | r :: t, m, hi, hg => by
    simp only [addChars]
    cases h : addChar s m r with
    | error e => exact hg
    | ok p =>
      obtain ⟨m', r'⟩ := p
      have h1 := addChars_glyphs hs hf t (Props.addChar_ok hi h).1 (addChar_glyphs hs hf hi hg h)
      simp only
      cases h2 : addChars s m' t with
      | mk m'' o =>
        rw [h2] at h1
        cases o <;> exact h1

theorem history_glyphs {s : CharSource} {f : Nat → Nat} (hs : s.subst = some f) (hf : ∀ r, f (f r) = f r) {m : CharMap}
    (h : Props.CharHistory s m) : MapGlyphs s f m := by
  induction h with
  | start => intro k g hk; simp [CharMap.empty, CharMap.index, CharMap.val] at hk
  | add t h ih => exact addChars_glyphs hs hf t h.inv ih

/-- What is drawn for a character stands for it. -/
theorem stands {l : Loaded} (hf : GoodFace l.face) (hl : load l.face.file l.face.useKerning = .ok l.info)
    (hh : Props.CharHistory (l.face.source l.info) l.map) {r r' g : Nat}
    (hr : r' = r ∨ (glyphOf l.info.font.cmap r = .error .notFound ∧ r' = l.face.subst r)) (hg : l.map.val r' = some g) : Stands l.face r g := by
  have hp := load_font hl
  have hm := history_glyphs (s := l.face.source l.info) (f := l.face.subst) rfl hf.again hh r' g hg
  have hc := fun r => gives_cases hf.file.tags hf.cmap hp r
  have ok : ∀ x y, glyphOf l.info.font.cmap x = .ok y → Gives l.face.file x y := by
    intro x y hy
    rcases hc x with ⟨g', h1, h2⟩ | ⟨h1, -⟩
    · rw [h1] at hy; cases hy; exact h2
    · rw [h1] at hy; cases hy
  have no : ∀ x, (∀ y, glyphOf l.info.font.cmap x ≠ .ok y) → ∀ y, ¬ Gives l.face.file x y := by
    intro x hx
    rcases hc x with ⟨g', h1, h2⟩ | ⟨-, h2⟩
    · exact absurd h1 (hx g')
    · exact h2
  rcases hr with rfl | ⟨hn, rfl⟩
  · rcases hm with h | ⟨rfl, h1, h2⟩
    · exact .own (ok _ _ h)
    · exact .missing (no _ h1) (by rw [h2]; exact no _ h1)
  · have hn' := no r (fun y hy => by rw [hn] at hy; cases hy)
    rcases hm with h | ⟨rfl, h1, h2⟩
    · exact .substitute hn' (ok _ _ h)
    · exact .missing hn' (no _ h1)

theorem stands_lt {f : Face} (hf : GoodFace f) {n r g : Nat} (hn : NumGlyphs f.file n) (h : Stands f r g) : g < n := by
  obtain ⟨h0, h1⟩ := hf.glyphs n hn
  cases h with
  | own h => exact h1 _ _ h
  | substitute _ h => exact h1 _ _ h
  | missing => exact h0

end Verif.Typeset
