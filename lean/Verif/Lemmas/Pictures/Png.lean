import Verif.Model.Pictures
import Verif.Props.PNG
import Verif.Spec.Pictures
/- What gopdf keeps of a PNG file. -/
namespace Verif.Pictures
open PngSpec PNG FileReader

theorem rows_decode (bpp w : Nat) : ∀ (h : Nat) (prev z : Bytes), unfilterRows bpp (bpp * w) prev h z = decode bpp w prev h z
  | 0, _, _ => rfl
  | h + 1, prev, [] => rfl
  | h + 1, prev, ft :: z => by
    unfold unfilterRows decode
    simp only
    split
    · rfl
    · cases unfilter bpp ft prev [] (z.take (bpp * w)) with
      | none => rfl
      | some line => simp only [rows_decode bpp w h]

theorem decodeRows_bytes (comps w h : Nat) (z : Bytes) : decodeRows comps 8 w h z = decode comps w [] h z := by
  unfold decodeRows
  rw [show (comps * 8 + 7) / 8 = comps by omega, show (comps * 8 * w + 7) / 8 = comps * w by
    rw [show comps * 8 * w = 8 * (comps * w) by ring]; omega, rows_decode]

theorem sample_bytes (w h comps : Nat) (rows : List Bytes) (x y k : Nat) :
    (Raster.mk w h 8 comps rows).sample x y k = (PngSpec.sample comps rows y x k).map (·.toNat) := by
  unfold Raster.sample PngSpec.sample
  rw [show (x * comps + k) * 8 / 8 = comps * x + k by rw [Nat.mul_div_cancel _ (by omega)]; ring, show (x * comps + k) * 8 % 8 = 0 by omega]
  congr 1
  funext b
  simp only [Nat.sub_self, Nat.pow_zero, Nat.div_one]
  exact Nat.mod_eq_of_lt b.toNat_lt

/-! ### The colour key -/

/-- What is kept of the `tRNS` chunk. -/
def keyOf (p : Png) : Bytes := match p.trns with
  | none => []
  | some t => match trnsOf p.ct t with
    | .ok (some k) => k
    | _ => []

theorem key_none (ct : Nat) : ∀ (cs : List Chunk) (k : Option Bytes), (∀ c ∈ cs, c.typ ≠ lit "tRNS") → keyAfter ct k cs = k
  | [], _, _ => rfl
  | c :: cs, k, h => by
    rw [keyAfter, if_neg (h c (by simp))]
    exact key_none ct cs k fun c hc => h c (List.mem_cons_of_mem _ hc)

theorem key_one (ct : Nat) : ∀ (cs : List Chunk), (cs.filter fun c => c.typ = lit "tRNS").length ≤ 1 →
    keyAfter ct none cs = match (cs.find? fun c => c.typ = lit "tRNS").map (·.data) with
      | none => none
      | some t => match trnsOf ct t with
        | .ok k => k
        | .error _ => none
  | [], _ => rfl
  | c :: cs, h => by
    by_cases ht : c.typ = lit "tRNS"
    · rw [keyAfter, if_pos ht, List.find?_cons_of_pos (by simpa using ht)]
      rw [List.filter_cons_of_pos (by simpa using ht), List.length_cons] at h
      rw [key_none ct cs]
      · simp only [Option.map_some]
        cases trnsOf ct c.data with
        | ok t => simp
        | error => rfl
      · intro c' hc' he
        have : c' ∈ cs.filter fun c => c.typ = lit "tRNS" := List.mem_filter.2 ⟨hc', by simpa using he⟩
        have := List.length_pos_of_mem this
        omega
    · rw [keyAfter, if_neg ht, List.find?_cons_of_neg (by simpa using ht)]
      rw [List.filter_cons_of_neg (by simpa using ht)] at h
      exact key_one ct cs h

theorem Png.Good.key {inflate : Bytes → Option Bytes} {p : Png} (g : p.Good inflate) : (keyAfter p.ct none p.chunks).getD [] = keyOf p := by
  rw [key_one _ _ g.onetrns]
  unfold keyOf Png.trns
  cases (p.chunks.find? fun c => c.typ = lit "tRNS").map (·.data) with
  | none => rfl
  | some t =>
    simp only
    rcases trnsOf p.ct t with e | _ | k <;> rfl

theorem Png.Good.trns_mem {inflate : Bytes → Option Bytes} {p : Png} (g : p.Good inflate) {c : Chunk} (hc : c ∈ p.chunks)
    (ht : c.typ = lit "tRNS") : p.trns = some c.data := by
  have h1 : c ∈ p.chunks.filter fun c => c.typ = lit "tRNS" := List.mem_filter.2 ⟨hc, by simpa using ht⟩
  have h2 := g.onetrns
  have h3 : p.chunks.filter (fun c => c.typ = lit "tRNS") = [c] := by
    match hf : p.chunks.filter (fun c => c.typ = lit "tRNS"), h1, h2 with
    | [], h1, _ => rw [hf] at h1; simp at h1
    | [a], h1, _ => rw [hf] at h1; simp at h1; rw [h1]; exact hf
    | _ :: _ :: _, _, h2 => rw [hf] at h2; simp at h2
  unfold Png.trns
  rw [← List.head?_filter, h3]
  rfl

theorem Png.Good.proper {inflate : Bytes → Option Bytes} {p : Png} (g : p.Good inflate) : ∀ c ∈ p.chunks, ProperChunk p.ct c := by
  intro c hc
  obtain ⟨h1, h2, h3, h4, h5⟩ := g.chunks c hc
  refine ⟨h1, h2, h3, h4, fun ht => ⟨fun h0 => ?_, fun h2 => ?_⟩⟩
  · obtain ⟨v, hv⟩ := g.trnsGrey h0 _ (g.trns_mem hc ht)
    rw [hv]; rfl
  · obtain ⟨a, b, c', hv⟩ := g.trnsRGB h2 _ (g.trns_mem hc ht)
    rw [hv]; rfl

theorem Png.Good.ct {inflate : Bytes → Option Bytes} {p : Png} (g : p.Good inflate) : p.ct = 0 ∨ p.ct = 2 ∨ p.ct = 3 ∨ p.ct = 4 ∨ p.ct = 6 := by
  have := g.kind; omega

theorem Png.Good.depth {inflate : Bytes → Option Bytes} {p : Png} (g : p.Good inflate) : p.depth ∈ [1, 2, 4, 8] := by
  rcases g.kind with h | h | h | h | h
  · exact h.2
  · simp [h.2]
  · exact h.2
  · simp [h.2]
  · simp [h.2]

/-! ### What is kept -/

/-- What gopdf keeps of the file. -/
structure Kept (inflate : Bytes → Option Bytes) (p : Png) (l : Objects.Look) (flags : Bool × Bool) : Prop where
  w : l.w = p.width
  h : l.h = p.height
  bpc : l.bpc = p.depth
  space : l.space = if p.ct = 0 ∨ p.ct = 4 then .gray else .rgb
  jpeg : l.jpeg = false
  colors : l.colors = p.colours
  pal : l.pal = palette [] p.chunks
  trns : l.trns = keyOf p
  alpha : flags.1 = decide (4 ≤ p.ct)
  plain : p.ct < 4 → l.smask = []
  indexed : flags.2 = decide (p.ct = 3)
  colour : ∃ rows q, (inflate l.data).bind (decodeRows p.colours p.depth p.width p.height) = some rows ∧ p.raster inflate = some q ∧
    ∀ x y k, x < p.width → y < p.height → k < p.colours → ∃ v, Raster.sample ⟨p.width, p.height, p.depth, p.colours, rows⟩ x y k = some v ∧ q.sample x y k = some v
  opacity : 4 ≤ p.ct → ∃ rows q, (inflate l.smask).bind (decodeRows 1 8 p.width p.height) = some rows ∧ p.raster inflate = some q ∧
    ∀ x y, x < p.width → y < p.height → ∃ v, Raster.sample ⟨p.width, p.height, 8, 1, rows⟩ x y 0 = some v ∧ q.sample x y p.colours = some v

/-- Rows that were decoded have their full length. -/
theorem unfilterRows_lines {bpp len : Nat} (hb : 0 < bpp) : ∀ (h : Nat) (prev z : Bytes) (lines : List Bytes),
    unfilterRows bpp len prev h z = some lines → lines.length = h ∧ ∀ l ∈ lines, l.length = len := by
  intro h
  induction h with
  | zero => intro prev z lines hd; simp [unfilterRows] at hd; subst hd; simp
  | succ h ih =>
    intro prev z lines hd
    cases z with
    | nil => simp [unfilterRows] at hd
    | cons ft rest =>
      unfold unfilterRows at hd
      simp only at hd
      split at hd
      · cases hd
      next hlen =>
      split at hd
      · cases hd
      next line hline =>
      rw [Option.map_eq_some_iff] at hd
      obtain ⟨ls, hls, rfl⟩ := hd
      obtain ⟨i1, i2⟩ := ih _ _ _ hls
      refine ⟨by simp [i1], ?_⟩
      intro l hl
      rcases List.mem_cons.1 hl with rfl | hl
      · have := (unfilter_get hb _ _ _ hline).1
        rw [this, List.length_take]; simp; omega
      · exact i2 l hl

/-- A decoded raster has all its samples. -/
theorem sample_some {w h bits comps : Nat} {z : Bytes} {rows : List Bytes} (hb : bits ∈ [1, 2, 4, 8]) (hc : 0 < comps)
    (hr : decodeRows comps bits w h z = some rows) {x y k : Nat} (hx : x < w) (hy : y < h) (hk : k < comps) :
    ∃ v, Raster.sample ⟨w, h, bits, comps, rows⟩ x y k = some v := by
  have hbits : 0 < bits := by simp only [List.mem_cons, List.not_mem_nil, or_false] at hb; omega
  have hpos : 0 < (comps * bits + 7) / 8 := by have := Nat.mul_pos hc hbits; omega
  obtain ⟨h1, h2⟩ := unfilterRows_lines hpos _ _ _ _ hr
  have hy' : y < rows.length := by omega
  have hl := h2 rows[y] (List.getElem_mem hy')
  have hi : (x * comps + k) * bits / 8 < rows[y].length := by
    rw [hl]
    have h3 : x * comps + k + 1 ≤ comps * w := by nlinarith
    have h4 : (x * comps + k + 1) * bits ≤ comps * w * bits := Nat.mul_le_mul_right _ h3
    have h5 : comps * bits * w = comps * w * bits := by ring
    rw [h5]
    have h6 : (x * comps + k + 1) * bits = (x * comps + k) * bits + bits := by ring
    omega
  unfold Raster.sample
  simp only [List.getElem?_eq_getElem hy', Option.bind_some, List.getElem?_eq_getElem hi, Option.map_some]
  exact ⟨_, rfl⟩

theorem good_parse {inflate : Bytes → Option Bytes} {deflate : Bytes → Bytes} (hz : ∀ x, inflate (deflate x) = some x)
    (hne : ∀ x, deflate x ≠ []) {p : Png} (g : p.Good inflate) :
    ∃ info, parsePng inflate deflate p.bytes = .ok info ∧ Kept inflate p (lookOf info) (flagsOf info) := by
  have hnonempty : ∀ c ∈ p.chunks, c.data ≠ [] := fun c hc => (g.chunks c hc).nonempty
  obtain ⟨s, h1, h2, h3, h4⟩ := walk_all (w := p.width) (h := p.height) (depth := p.depth) (ecrc := p.ecrc) g.hcrc g.proper hnonempty
  have hdep : p.depth ≤ 8 := by have := g.depth; simp only [List.mem_cons, List.not_mem_nil, or_false] at this; omega
  have hp := parsePng_file (inflate := inflate) (deflate := deflate) g.width g.height hdep g.ct g.hcrc s h1 (by
    intro hc
    obtain ⟨b, hb, hb1, hb2⟩ := (g.palette hc).1
    rw [h3, List.all_eq_false]
    exact ⟨b, hb, by simp [hb1]; intro hx; by_contra hy; exact hb2 ⟨hx, by simpa using hy⟩⟩)
  have hkey : s.trns.getD [] = keyOf p := by rw [h4]; exact g.key
  obtain ⟨q, hq⟩ := Option.isSome_iff_exists.1 g.samples
  have hgi : lit "DeviceGray" ≠ lit "Indexed" ∧ lit "DeviceRGB" ≠ lit "Indexed" ∧ lit "Indexed" ≠ lit "DeviceGray" ∧ lit "DeviceRGB" ≠ lit "DeviceGray" := by decide
  by_cases hct : 4 ≤ p.ct
  · obtain ⟨hd8, hc46⟩ : p.depth = 8 ∧ (p.ct = 4 ∨ p.ct = 6) := by have := g.kind; omega
    have hraster := hq
    unfold Png.raster at hraster
    rw [hd8] at hraster
    rw [if_pos hct, h2] at hp
    obtain ⟨lines, hl, rfl⟩ := Option.map_eq_some_iff.1 hraster
    obtain ⟨z, z1, z2⟩ := Option.bind_eq_some_iff.1 hl
    rw [decodeRows_bytes] at z2
    rw [z1] at hp
    rcases hc46 with h46 | h46
    · obtain ⟨info, sm, grey, alpha, a1, a2, a3, a4, a5, a6, a7, a8, a9⟩ := grey_alpha_split_lossless (ecrc := p.ecrc) hz g.width g.height g.hcrc
        (by have := g.proper; rwa [h46] at this) hnonempty (lines := lines) (by rw [z1]; simpa [Png.channels, Png.colours, h46] using z2)
      have hb : p.bytes = file p.width p.height 8 4 p.hcrc p.chunks p.ecrc := by unfold Png.bytes; rw [hd8, h46]
      rw [hb]
      rw [h46, hd8] at hp
      simp only [if_true] at hp
      refine ⟨info, a1, ?_⟩
      rw [a1] at hp
      split at hp
      · cases hp
      next co al hsp =>
      simp only [Except.ok.injEq] at hp
      have hcol : p.colours = 1 := by simp [Png.colours, h46]
      have hch : p.channels = 2 := by simp [Png.channels, hcol, h46]
      subst hp
      simp only at a7 a8 a2
      simp only [Option.some.injEq] at a2
      subst a2
      refine ⟨rfl, rfl, hd8.symm, by simp [lookOf, h46], rfl, by simp [lookOf, hcol], h3, hkey, by simp [flagsOf, hne, h46], by omega, by simp [flagsOf, h46, hgi.1], ?_, ?_⟩
      · refine ⟨grey, _, ?_, hq, ?_⟩
        · rw [hcol, hd8]
          simp only [pdfDecode] at a7
          rw [show decodeRows 1 8 p.width p.height = decode 1 p.width [] p.height from funext fun z => decodeRows_bytes 1 p.width p.height z]
          exact a7
        · intro x y k hx hy hk
          obtain rfl : k = 0 := by omega
          rw [hd8, hcol, hch, sample_bytes, sample_bytes]
          obtain ⟨⟨b1, v, b2⟩, -⟩ := a9 y x hy hx
          exact ⟨v.toNat, by rw [b1, b2]; rfl, by rw [b2]; rfl⟩
      · intro _
        refine ⟨alpha, _, ?_, hq, ?_⟩
        · simp only [pdfDecode] at a8
          rw [show decodeRows 1 8 p.width p.height = decode 1 p.width [] p.height from funext fun z => decodeRows_bytes 1 p.width p.height z]
          exact a8
        · intro x y hx hy
          rw [hcol, hch, sample_bytes, sample_bytes]
          obtain ⟨-, b1, v, b2⟩ := a9 y x hy hx
          exact ⟨v.toNat, by rw [b1, b2]; rfl, by rw [b2]; rfl⟩
    · obtain ⟨info, sm, color, alpha, a1, a2, a3, a4, a5, a6, a7, a8, a9⟩ := rgba_split_lossless (ecrc := p.ecrc) hz g.width g.height g.hcrc
        (by have := g.proper; rwa [h46] at this) hnonempty (lines := lines) (by rw [z1]; simpa [Png.channels, Png.colours, h46] using z2)
      have hb : p.bytes = file p.width p.height 8 6 p.hcrc p.chunks p.ecrc := by unfold Png.bytes; rw [hd8, h46]
      rw [hb]
      rw [h46, hd8] at hp
      simp only [if_neg (by decide : ¬ (6 : Nat) = 4)] at hp
      refine ⟨info, a1, ?_⟩
      rw [a1] at hp
      split at hp
      · cases hp
      next co al hsp =>
      simp only [Except.ok.injEq] at hp
      have hcol : p.colours = 3 := by simp [Png.colours, h46]
      have hch : p.channels = 4 := by simp [Png.channels, hcol, h46]
      subst hp
      simp only at a7 a8 a2
      simp only [Option.some.injEq] at a2
      subst a2
      refine ⟨rfl, rfl, hd8.symm, by simp [lookOf, h46, hgi.2.2.2], rfl, by simp [lookOf, hcol], h3, hkey, by simp [flagsOf, hne, h46], by omega, by simp [flagsOf, h46, hgi.2.1], ?_, ?_⟩
      · refine ⟨color, _, ?_, hq, ?_⟩
        · rw [hcol, hd8]
          simp only [pdfDecode] at a7
          rw [show decodeRows 3 8 p.width p.height = decode 3 p.width [] p.height from funext fun z => decodeRows_bytes 3 p.width p.height z]
          exact a7
        · intro x y k hx hy hk
          rw [hd8, hcol, hch, sample_bytes, sample_bytes]
          obtain ⟨b1, v, b2⟩ := (a9 y x hy hx).1 k (by omega)
          exact ⟨v.toNat, by rw [b1, b2]; rfl, by rw [b2]; rfl⟩
      · intro _
        refine ⟨alpha, _, ?_, hq, ?_⟩
        · simp only [pdfDecode] at a8
          rw [show decodeRows 1 8 p.width p.height = decode 1 p.width [] p.height from funext fun z => decodeRows_bytes 1 p.width p.height z]
          exact a8
        · intro x y hx hy
          rw [hcol, hch, sample_bytes, sample_bytes]
          obtain ⟨-, b1, v, b2⟩ := a9 y x hy hx
          exact ⟨v.toNat, by rw [b1, b2]; rfl, by rw [b2]; rfl⟩
  · rw [if_neg hct] at hp
    refine ⟨_, hp, ?_⟩
    have hch : p.channels = p.colours := by simp [Png.channels, hct]
    have hc3 := g.ct
    refine ⟨rfl, rfl, rfl, ?_, rfl, rfl, h3, hkey, by simp [flagsOf]; omega, fun _ => rfl, ?_, ?_, fun h => absurd h hct⟩
    · simp only [lookOf]
      rcases hc3 with h | h | h | h | h <;> simp [h, hgi.2.2.2, hgi.2.2.1]
    · simp only [flagsOf]
      rcases hc3 with h | h | h | h | h <;> simp [h, hgi.1, hgi.2.1]
    · unfold Png.raster at hq
      rw [hch] at hq
      obtain ⟨lines, hl, rfl⟩ := Option.map_eq_some_iff.1 hq
      refine ⟨lines, _, by simp only [lookOf]; rw [h2]; exact hl, by unfold Png.raster; rw [hch, hl]; rfl, ?_⟩
      intro x y k hx hy hk
      obtain ⟨z, -, z2⟩ := Option.bind_eq_some_iff.1 hl
      obtain ⟨v, hv⟩ := sample_some g.depth (by unfold Png.colours; split <;> omega) z2 hx hy hk
      exact ⟨v, hv, hv⟩

end Verif.Pictures
