import Verif.Lemmas.Pictures.Image
import Verif.Lemmas.Pictures.Png
import Mathlib.Data.List.NodupEquivFin
/- The pixels of the file's image are those of the PNG file. -/
set_option maxRecDepth 10000
namespace Verif.Pictures
open Doc Objects ObjectValue PdfObject FileReader Props

theorem seq_append {α : Type} : ∀ (a b : List (Option α)) (s : List α), sequence (a ++ b) = some s → sequence a = some (s.take a.length)
  | [], b, s, _ => by simp [sequence]
  | x :: a, b, s, h => by
    simp only [List.cons_append, sequence, Option.bind_eq_some_iff, Option.map_eq_some_iff] at h
    obtain ⟨x', rfl, s', h1, rfl⟩ := h
    simp [sequence, seq_append a b s' h1]

theorem seq_length {α : Type} : ∀ (a : List (Option α)) (s : List α), sequence a = some s → s.length = a.length
  | [], s, h => by simp [sequence] at h; simp [← h]
  | x :: a, s, h => by
    simp only [sequence, Option.bind_eq_some_iff, Option.map_eq_some_iff] at h
    obtain ⟨x', rfl, s', h1, rfl⟩ := h
    simp [seq_length a s' h1]

theorem seq_get {α : Type} : ∀ (a : List (Option α)) (s : List α) (k : Nat) (v : α), sequence a = some s → a[k]? = some (some v) → s[k]? = some v
  | [], s, k, v, h, h' => by simp at h'
  | x :: a, s, k, v, h, h' => by
    simp only [sequence, Option.bind_eq_some_iff, Option.map_eq_some_iff] at h
    obtain ⟨x', rfl, s', h1, rfl⟩ := h
    cases k with
    | zero => simpa using h'
    | succ k => simpa using seq_get a s' k v h1 (by simpa using h')

/-- Samples of a raster that agrees with another in its first components. -/
theorem samples_take {q r : Raster} {x y : Nat} {s : List Nat} (hc : r.comps ≤ q.comps) (hs : q.samples x y = some s)
    (h : ∀ k < r.comps, r.sample x y k = q.sample x y k) : r.samples x y = some (s.take r.comps) := by
  unfold Raster.samples at hs ⊢
  obtain ⟨n, hn⟩ := Nat.exists_eq_add_of_le hc
  have : (List.range r.comps).map (r.sample x y) = (List.range r.comps).map (q.sample x y) :=
    List.map_congr_left fun k hk => h k (List.mem_range.1 hk)
  rw [this]
  rw [hn, List.range_add, List.map_append] at hs
  simpa using seq_append _ _ _ hs

variable {e : Env} {d : Doc} {h : List Op} {prot : Bool} {c : Decoder} {i id : Nat} {info : ImgInfo} {s g : Option Nat} {p : Png}

theorem Png.Good.entries {inflate : Bytes → Option Bytes} (hg : p.Good inflate) (hc : p.ct = 3) : 3 ≤ (PngSpec.palette [] p.chunks).length := by
  obtain ⟨⟨b, hb, -⟩, hd⟩ := hg.palette hc
  have := List.length_pos_of_mem hb
  omega

theorem Kept.notCmyk {inflate : Bytes → Option Bytes} {l : Look} {f : Bool × Bool} (hk : Kept inflate p l f) : l.space ≠ .cmyk := by
  rw [hk.space]; split <;> simp

theorem Shown.spaceIs (q : Shown e prot h d c i id info s g) (hg : p.Good c.inflate) (hk : Kept c.inflate p (e.look i) (info.alpha, info.indexed))
    (hm : info.isMask = false) : pdfSpace c (file e d) (i + 1) = some (if p.ct = 3 then .indexed ((PngSpec.palette [] p.chunks).length / 3 - 1) (PngSpec.palette [] p.chunks)
      else if p.ct = 0 ∨ p.ct = 4 then .gray else .rgb) := by
  have hi := hk.indexed
  simp only at hi
  rw [q.space hk.notCmyk (by simp [hm]) (fun h => by rw [hk.pal]; exact hg.entries (by simpa [hi] using h))]
  unfold spaceOf
  rw [hm, hk.pal, hk.space]
  have := hg.ct
  by_cases h3 : p.ct = 3
  · simp [hi, h3]
  · by_cases h0 : p.ct = 0 ∨ p.ct = 4 <;> simp [hi, h3, h0]

theorem Png.Good.comps {inflate : Bytes → Option Bytes} (hg : p.Good inflate) {n : Nat} {pal : Bytes} :
    Space.comps (if p.ct = 3 then .indexed n pal else if p.ct = 0 ∨ p.ct = 4 then .gray else .rgb) = p.colours := by
  unfold Png.colours
  rcases hg.ct with h | h | h | h | h <;> simp [h, Space.comps]

/-- The pixel in both files. -/
theorem Shown.pixel (q : Shown e prot h d c i id info s g) (hg : p.Good c.inflate) (hk : Kept c.inflate p (e.look i) (info.alpha, info.indexed))
    (hm : info.isMask = false) {x y : Nat} (hx : x < p.width) (hy : y < p.height) {l : List Nat}
    (hl : (p.raster c.inflate).bind (·.samples x y) = some l) :
    l.length = p.channels ∧ ∃ r, pdfRaster c (file e d) (i + 1) p.colours = some r ∧ r.width = p.width ∧ r.height = p.height ∧ r.bits = p.depth ∧
      r.samples x y = some (l.take p.colours) := by
  obtain ⟨rows, rast, h1, h2, h3⟩ := hk.colour
  have hr := q.raster hm
  rw [hk.colors, hk.bpc, hk.w, hk.h, h1] at hr
  rw [h2, Option.bind_some] at hl
  have hrast : rast.comps = p.channels := by
    unfold Png.raster at h2
    obtain ⟨_, _, rfl⟩ := Option.map_eq_some_iff.1 h2
    rfl
  have hlen := seq_length _ _ hl
  simp only [List.length_map, List.length_range, hrast] at hlen
  refine ⟨hlen, _, hr, rfl, rfl, rfl, ?_⟩
  refine samples_take (q := rast) (r := ⟨p.width, p.height, p.depth, p.colours, rows⟩) ?_ hl fun k hk => ?_
  · rw [hrast]; unfold Png.channels; split <;> simp
  · obtain ⟨v, v1, v2⟩ := h3 x y k hx hy hk
    rw [v1, v2]

theorem Shown.sameColours (q : Shown e prot h d c i id info s g) (hg : p.Good c.inflate) (hk : Kept c.inflate p (e.look i) (info.alpha, info.indexed))
    (hm : info.isMask = false) : SameColours c (file e d) p (i + 1) := by
  refine ⟨by rw [q.size, hk.w, hk.h], fun x y colour hx hy hc => ?_⟩
  unfold Png.colour at hc
  obtain ⟨l, hl, hc⟩ := Option.bind_eq_some_iff.1 hc
  obtain ⟨hlen, r, r1, r2, r3, r4, r5⟩ := q.pixel hg hk hm hx hy hl
  obtain ⟨stored, o1, -⟩ := q.object
  unfold pdfColour
  rw [o1, q.spaceIs hg hk hm]
  simp only [bind, Option.bind, hg.comps, r1, r5, dict_noDecode hk.notCmyk, Option.isSome_none, Bool.false_eq_true, if_false]
  by_cases h3 : p.ct = 3
  · rw [if_pos h3] at hc ⊢
    have hcol : p.colours = 1 := by simp [Png.colours, h3]
    have hch : p.channels = 1 := by simp [Png.channels, hcol, h3]
    rw [hch] at hlen
    obtain ⟨v, rfl⟩ := List.length_eq_one_iff.1 hlen
    simp only [hcol, List.take_succ_cons, List.take_zero, List.headD_cons] at hc ⊢
    rw [if_pos, hc]
    unfold entry at hc
    obtain ⟨t, ht, -⟩ := Option.map_eq_some_iff.1 hc
    simp only [sequence, Option.bind_eq_some_iff, Option.map_eq_some_iff] at ht
    obtain ⟨_, _, _, ⟨_, _, _, ⟨_, hb, _⟩, _⟩, _⟩ := ht
    obtain ⟨hb, -⟩ := List.getElem?_eq_some_iff.1 hb
    omega
  · rw [if_neg h3] at hc ⊢
    split
    · next hx => split at hx <;> cases hx
    · rw [r4]; exact hc

theorem inKey_one (a v : Nat) : inKey [a] [ObjectValue.nat v, ObjectValue.nat v] ↔ v = a := by
  simp only [inKey, ObjectValue.nat, and_true, Nat.cast_le]
  omega

theorem inKey_three (a b c u v w : Nat) : inKey [a, b, c] [ObjectValue.nat u, ObjectValue.nat u, ObjectValue.nat v, ObjectValue.nat v, ObjectValue.nat w, ObjectValue.nat w] ↔
    u = a ∧ v = b ∧ w = c := by
  simp only [inKey, ObjectValue.nat, and_true, Nat.cast_le]
  omega

theorem trnsOf_zero (a v : UInt8) : PNG.trnsOf 0 [a, v] = .ok (some [v]) := rfl
theorem trnsOf_two (a r b g c' x : UInt8) : PNG.trnsOf 2 [a, r, b, g, c', x] = .ok (some [r, g, x]) := rfl
theorem trnsOf_pal_mem {t : Bytes} (h : (0 : UInt8) ∈ t) : PNG.trnsOf 3 t = .ok (some [UInt8.ofNat (t.idxOf 0)]) := by simp [PNG.trnsOf, h]
theorem trnsOf_pal_not {t : Bytes} (h : (0 : UInt8) ∉ t) : PNG.trnsOf 3 t = .ok none := by simp [PNG.trnsOf, h]

theorem two_le_count {t : Bytes} {a b : Nat} {u v : UInt8} (ha : t[a]? = some u) (hb : t[b]? = some v) (hab : a ≠ b) (hu : u = v) :
    2 ≤ t.count v := by
  subst hu
  obtain ⟨ha', ha⟩ := List.getElem?_eq_some_iff.1 ha
  obtain ⟨hb', hb⟩ := List.getElem?_eq_some_iff.1 hb
  by_contra hlt
  have := List.duplicate_iff_two_le_count (x := u) (l := t)
  rcases Nat.lt_or_gt_of_ne hab with h | h
  · exact hlt (this.1 ((List.duplicate_iff_exists_distinct_get).2 ⟨⟨a, ha'⟩, ⟨b, hb'⟩, h, by simp [ha], by simp [hb]⟩))
  · exact hlt (this.1 ((List.duplicate_iff_exists_distinct_get).2 ⟨⟨b, hb'⟩, ⟨a, ha'⟩, h, by simp [hb], by simp [ha]⟩))

/-- The opacity the `tRNS` chunk gives to a pixel. -/
def trnsOpacity (p : Png) (l : List Nat) : Nat :=
  match p.trns with
  | none => 255
  | some t => if p.ct = 3 then (t.getD (l.headD 0) 255).toNat else if words t = l then 0 else 255

/-- The colour key does what the `tRNS` chunk says. -/
theorem Png.Good.keyed {inflate : Bytes → Option Bytes} (hg : p.Good inflate) (hc : ¬ 4 ≤ p.ct) {l : List Nat} (hl : l.length = p.colours)
    {key : List Val} (hk : key = (keyOf p).flatMap fun t => [ObjectValue.nat t.toNat, ObjectValue.nat t.toNat]) :
    (inKey l key ∧ trnsOpacity p l = 0) ∨ (¬ inKey l key ∧ trnsOpacity p l = 255) := by
  have hlne : ∀ k, (k = ([] : List Val)) → ¬ inKey l k := by
    rintro k rfl
    cases l with
    | nil => unfold Png.colours at hl; split at hl <;> simp at hl
    | cons => simp [inKey]
  unfold keyOf at hk
  unfold trnsOpacity
  cases ht : p.trns with
  | none => rw [ht] at hk; exact .inr ⟨hlne _ (by simpa using hk), rfl⟩
  | some t =>
    rw [ht] at hk
    simp only at hk ⊢
    rcases hg.ct with h | h | h | h | h
    · obtain ⟨v, rfl⟩ := hg.trnsGrey h t ht
      simp only [Png.colours, h] at hl
      obtain ⟨a, rfl⟩ := List.length_eq_one_iff.1 (by simpa using hl)
      rw [h, trnsOf_zero] at hk
      simp only [List.flatMap_cons, List.flatMap_nil, List.append_nil] at hk
      rw [hk, inKey_one, h, if_neg (by decide)]
      by_cases hv : v.toNat = a
      · exact .inl ⟨hv, if_pos (by simp [words, hv])⟩
      · exact .inr ⟨hv, if_neg (by simpa [words] using hv)⟩
    · obtain ⟨r, g, b, rfl⟩ := hg.trnsRGB h t ht
      simp only [Png.colours, h] at hl
      obtain ⟨x, y, z, rfl⟩ := List.length_eq_three.1 (by simpa using hl)
      rw [h, trnsOf_two] at hk
      simp only [List.flatMap_cons, List.flatMap_nil, List.append_nil, List.cons_append, List.nil_append] at hk
      rw [hk, inKey_three, h, if_neg (by decide)]
      by_cases hv : r.toNat = x ∧ g.toNat = y ∧ b.toNat = z
      · exact .inl ⟨hv, if_pos (by simpa [words] using hv)⟩
      · exact .inr ⟨hv, if_neg (by simpa [words] using hv)⟩
    · obtain ⟨t1, t2, t3⟩ := hg.trnsPal h t ht
      simp only [Png.colours, h] at hl
      obtain ⟨a, rfl⟩ := List.length_eq_one_iff.1 (by simpa using hl)
      rw [h] at hk ⊢
      simp only [if_true, List.headD_cons]
      have hat : ∀ a, t.getD a 255 = 255 ∨ (t.getD a 255 = 0 ∧ a < t.length ∧ t[a]? = some 0) := by
        intro a
        by_cases ha : a < t.length
        · rw [List.getD_eq_getElem?_getD, List.getElem?_eq_getElem ha]
          rcases t2 t[a] (List.getElem_mem ha) with h0 | h0
          · exact .inr ⟨by simpa using h0, ha, by rw [h0]⟩
          · exact .inl (by simpa using h0)
        · exact .inl (by rw [List.getD_eq_getElem?_getD, List.getElem?_eq_none (by omega)]; rfl)
      by_cases h0 : (0 : UInt8) ∈ t
      · have hi : t.idxOf 0 < t.length := List.idxOf_lt_length_iff.2 h0
        have hidx : (UInt8.ofNat (t.idxOf 0)).toNat = t.idxOf 0 := by simp only [UInt8.toNat_ofNat']; omega
        rw [trnsOf_pal_mem h0] at hk
        simp only [List.flatMap_cons, List.flatMap_nil, List.append_nil, hidx] at hk
        rw [hk, inKey_one]
        by_cases ha : t.idxOf 0 = a
        · refine .inl ⟨ha, ?_⟩
          rw [← ha, List.getD_eq_getElem?_getD, List.getElem?_eq_getElem hi, List.getElem_idxOf hi]
          rfl
        · refine .inr ⟨ha, ?_⟩
          rcases hat a with hv | ⟨-, hv, hv'⟩
          · rw [hv]; rfl
          · exfalso
            have := two_le_count (List.getElem?_eq_getElem hi) hv' ha (by rw [List.getElem_idxOf hi])
            omega
      · rw [trnsOf_pal_not h0] at hk
        simp only [List.flatMap_nil] at hk
        refine .inr ⟨hlne _ hk, ?_⟩
        rcases hat a with hv | ⟨-, hv, hv'⟩
        · rw [hv]; rfl
        · exact absurd (List.mem_of_getElem? hv') h0
    · omega
    · omega

theorem Shown.sameOpacity (q : Shown e prot h d c i id info s g) (hg : p.Good c.inflate) (hk : Kept c.inflate p (e.look i) (info.alpha, info.indexed))
    (hm : info.isMask = false) (hs : info.split = false) : SameOpacity c (file e d) p (i + 1) := by
  intro x y a hx hy ha
  unfold Png.opacity at ha
  obtain ⟨l, hl, ha⟩ := Option.map_eq_some_iff.1 ha
  obtain ⟨hlen, r, r1, r2, r3, r4, r5⟩ := q.pixel hg hk hm hx hy hl
  obtain ⟨stored, o1, -⟩ := q.object
  unfold pdfOpacity
  rw [o1, q.spaceIs hg hk hm]
  simp only [bind, Option.bind, hg.comps, r1, r5]
  have hal := hk.alpha
  simp only at hal
  by_cases h4 : 4 ≤ p.ct
  · rw [if_pos h4] at ha
    obtain ⟨j, j1, j2, j3⟩ := q.smask hm hs (by simpa [h4] using hal)
    obtain ⟨rows, rast, h1, h2, h3⟩ := hk.opacity h4
    rw [hk.w, hk.h, h1] at j3
    simp only [j1, j2, j3, Option.map_some, r2, r3, and_self, if_true]
    obtain ⟨v, v1, v2⟩ := h3 x y hx hy
    rw [v1]
    rw [h2, Option.bind_some] at hl
    have hcol : p.channels = p.colours + 1 := by simp [Png.channels, h4]
    have hrast : rast.comps = p.channels := by
      unfold Png.raster at h2
      obtain ⟨_, _, rfl⟩ := Option.map_eq_some_iff.1 h2
      rfl
    have := seq_get _ _ p.colours v hl (by simp [hrast, hcol, v2])
    rw [← ha, List.getD_eq_getElem?_getD, this]
    rfl
  · rw [if_neg h4] at ha
    have hcol : p.channels = p.colours := by simp [Png.channels, h4]
    rw [hcol] at hlen
    rw [List.take_of_length_le (by omega)]
    simp only [dict_noSMask (by simpa [h4] using hal), dict_mask hm hs, hk.trns]
    have key := hg.keyed h4 hlen rfl
    change trnsOpacity p l = a at ha
    by_cases hkey : keyOf p = []
    · rw [if_pos hkey]
      rcases key with ⟨hin, -⟩ | ⟨-, hv⟩
      · rw [hkey] at hin
        cases l with
        | nil => unfold Png.colours at hlen; split at hlen <;> simp at hlen
        | cons => simp [inKey] at hin
      · rw [← ha, hv]
    · rw [if_neg hkey]
      rcases key with ⟨hin, hv⟩ | ⟨hin, hv⟩
      · simp only [if_pos hin]; rw [← ha, hv]
      · simp only [if_neg hin]; rw [← ha, hv]

theorem Shown.opacityAsGrey (q : Shown e prot h d c i id info s g) (hg : p.Good c.inflate) (hk : Kept c.inflate p (e.look i) (info.alpha, info.indexed))
    (hm : info.isMask = true) (h4 : 4 ≤ p.ct) : OpacityAsGrey c (file e d) p (i + 1) := by
  refine ⟨by rw [q.size, hk.w, hk.h], fun x y a hx hy ha => ?_⟩
  unfold Png.opacity at ha
  obtain ⟨l, hl, ha⟩ := Option.map_eq_some_iff.1 ha
  rw [if_pos h4] at ha
  obtain ⟨stored, o1, -⟩ := q.object
  have hi := hk.indexed
  simp only at hi
  have hi' : info.indexed = false := by rw [hi]; simp; omega
  have hd8 : p.depth = 8 := by have := hg.kind; omega
  have hspace : pdfSpace c (file e d) (i + 1) = some .gray := by
    rw [q.space hk.notCmyk (fun _ => hi') (fun h => by rw [hi'] at h; cases h)]
    simp [spaceOf, hi', hm]
  obtain ⟨rows, rast, h1, h2, h3⟩ := hk.opacity h4
  have hr := q.mask_raster hm (by rw [hk.bpc, hd8])
  rw [hk.w, hk.h, h1] at hr
  obtain ⟨v, v1, v2⟩ := h3 x y hx hy
  unfold pdfColour
  rw [o1, hspace]
  simp only [bind, Option.bind, Space.comps, hr, Option.map_some, Raster.samples, List.range_one, List.map_cons, List.map_nil, sequence, v1,
    dict_noDecode hk.notCmyk, Option.isSome_none, Bool.false_eq_true, if_false]
  rw [h2, Option.bind_some] at hl
  have hcol : p.channels = p.colours + 1 := by simp [Png.channels, h4]
  have hrast : rast.comps = p.channels := by
    unfold Png.raster at h2
    obtain ⟨_, _, rfl⟩ := Option.map_eq_some_iff.1 h2
    rfl
  have := seq_get _ _ p.colours v hl (by simp [hrast, hcol, v2])
  rw [List.getD_eq_getElem?_getD, this] at ha
  simp only [Option.getD_some] at ha
  subst ha
  rfl

end Verif.Pictures
