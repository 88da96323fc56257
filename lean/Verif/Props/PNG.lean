import Verif.Lemmas.PNGLines
/-
Embedding of PNG images (properties C31, C32).
-/
namespace Verif.PNG
open Verif.TTF Verif.Embed Verif.PngSpec

/-- A chunk as the standard has it: four-byte type and check bytes, and transparency chunks of their fixed sizes. -/
structure ProperChunk (ct : Nat) (c : Chunk) : Prop where
  typ : c.typ.length = 4
  crc : c.crc.length = 4
  notEnd : c.typ ≠ lit "IEND"
  small : c.data.length < 2 ^ 32
  trns : c.typ = lit "tRNS" → (ct = 0 → c.data.length = 2) ∧ (ct = 2 → c.data.length = 6)

theorem good_of {ct : Nat} {c : Chunk} (h : ProperChunk ct c) (hne : c.data ≠ []) : Good ct c :=
  ⟨h.typ, h.crc, h.notEnd, hne, h.small, fun ht => ⟨fun h0 => by have := (h.trns ht).1 h0; omega, fun h2 => by have := (h.trns ht).2 h2; omega⟩⟩

theorem chunk_bytes_length (c : Chunk) : (Chunk.bytes c).length = 4 + c.typ.length + c.data.length + c.crc.length := by
  simp [Chunk.bytes, be]; omega

theorem length_le_flatten (cs : List Chunk) : cs.length ≤ ((cs.map Chunk.bytes).flatten).length := by
  induction cs with
  | nil => simp
  | cons c cs ih =>
    simp only [List.map_cons, List.flatten_cons, List.length_append, List.length_cons, chunk_bytes_length]
    omega

/-- What the parser does with a proper file up to the end of the chunk walk. -/
theorem parsePng_file {inflate : Bytes → Option Bytes} {deflate : Bytes → Bytes} {w h depth ct : Nat} {hcrc ecrc : Bytes}
    {cs : List Chunk} (hw : w < 2 ^ 32) (hh : h < 2 ^ 32) (hdep : depth ≤ 8)
    (hct : ct = 0 ∨ ct = 2 ∨ ct = 3 ∨ ct = 4 ∨ ct = 6) (hcrc4 : hcrc.length = 4)
    (s : Chunks) (hs : chunkLoop (file w h depth ct hcrc cs ecrc) ct ((file w h depth ct hcrc cs ecrc).length + 1) 33 ⟨[], none, []⟩ = .ok s)
    (hpal : ct = 3 → s.pal.all (fun b => b = 32 ∨ (9 ≤ b ∧ b ≤ 13)) = false) :
    parsePng inflate deflate (file w h depth ct hcrc cs ecrc) =
      (if 4 ≤ ct then
        match inflate s.data with
        | none => .error .err
        | some z =>
          match (if ct = 4 then splitLines splitGA (2 * w) z 0 h ([], []) else splitLines splitRGBA (4 * w) z 0 h ([], [])) with
          | .error e => .error e
          | .ok (color, alpha) =>
            .ok ⟨w, h, depth, if ct = 0 ∨ ct = 4 then lit "DeviceGray" else if ct = 3 then lit "Indexed" else lit "DeviceRGB",
              if ct = 2 ∨ ct = 6 then 3 else 1, s.pal, s.trns, deflate color, some (deflate alpha)⟩
      else .ok ⟨w, h, depth, if ct = 0 ∨ ct = 4 then lit "DeviceGray" else if ct = 3 then lit "Indexed" else lit "DeviceRGB",
              if ct = 2 ∨ ct = 6 then 3 else 1, s.pal, s.trns, s.data, none⟩) := by
  generalize hd : file w h depth ct hcrc cs ecrc = d at hs ⊢
  have hd' := hd.symm
  simp only [file, Chunk.bytes, header, List.append_assoc] at hd'
  have e0 : d.drop 0 = signature ++ (be 13 ++ (lit "IHDR" ++ (be w ++ (be h ++ ([UInt8.ofNat depth] ++ ([UInt8.ofNat ct] ++
      ([0] ++ ([0] ++ ([0] ++ (hcrc ++ ((cs.map Chunk.bytes).flatten ++ (be 0 ++ (lit "IEND" ++ ecrc))))))))))))) := by
    rw [hd']; simp [be]
  have e8 := drop_more (n := 8) e0 rfl
  have e12 := drop_more (n := 4) e8 rfl
  have e16 := drop_more (n := 4) e12 (by decide)
  have e20 := drop_more (n := 4) e16 rfl
  have e24 := drop_more (n := 4) e20 rfl
  have e25 := drop_more (n := 1) e24 rfl
  have e26 := drop_more (n := 1) e25 rfl
  have e27 := drop_more (n := 1) e26 rfl
  have e28 := drop_more (n := 1) e27 rfl
  simp only [Nat.zero_add, Nat.reduceAdd] at e8 e12 e16 e20 e24 e25 e26 e27 e28
  have hct8 : (UInt8.ofNat ct).toNat = ct := by simp only [UInt8.toNat_ofNat']; omega
  have hdp8 : (UInt8.ofNat depth).toNat = depth := by simp only [UInt8.toNat_ofNat']; omega
  unfold parsePng
  rw [readBytes_ok e0 (n := 8) rfl (by simp [signature]), readBytes_ok e12 (n := 4) (by decide) (by simp [lit]),
    readUInt_ok e16 hw, readUInt_ok e20 hh, readBytes_ok e24 (n := 1) rfl (by simp), readBytes_ok e25 (n := 1) rfl (by simp),
    readBytes_ok e26 (n := 1) rfl (by simp), readBytes_ok e27 (n := 1) rfl (by simp), readBytes_ok e28 (n := 1) rfl (by simp)]
  simp only [bind, Except.bind, pure, Except.pure, signature, List.getD_cons_zero, hct8, hdp8, hs]
  rw [if_neg (by simp), if_neg (by simp), if_neg (by omega), if_neg (by omega), if_neg (by simp), if_neg (by simp), if_neg (by simp)]
  rw [if_neg (by rintro ⟨h3, hall⟩; rw [hpal h3] at hall; cases hall)]
  by_cases h4 : 4 ≤ ct
  · rw [if_pos h4, if_pos h4]
    cases inflate s.data with
    | none => rfl
    | some z =>
      simp only
      by_cases hc4 : ct = 4
      · simp only [if_pos hc4]
        cases splitLines splitGA (2 * w) z 0 h ([], []) <;> rfl
      · simp only [if_neg hc4]
        cases splitLines splitRGBA (4 * w) z 0 h ([], []) <;> rfl
  · rw [if_neg h4, if_neg h4]

/-- The chunk walk over a proper file without empty chunks. -/
theorem walk_all {w h depth ct : Nat} {hcrc ecrc : Bytes} {cs : List Chunk} (hcrc4 : hcrc.length = 4)
    (hcs : ∀ c ∈ cs, ProperChunk ct c) (hne : ∀ c ∈ cs, c.data ≠ []) :
    ∃ s, chunkLoop (file w h depth ct hcrc cs ecrc) ct ((file w h depth ct hcrc cs ecrc).length + 1) 33 ⟨[], none, []⟩ = .ok s ∧
      s.data = idat cs ∧ s.pal = palette [] cs ∧ s.trns = keyAfter ct none cs := by
  have hdrop : (file w h depth ct hcrc cs ecrc).drop 33 =
      (cs.map Chunk.bytes).flatten ++ ((Chunk.mk (lit "IEND") [] ecrc).bytes ++ []) := by
    have hl : (signature ++ (Chunk.mk (lit "IHDR") (header w h depth ct) hcrc).bytes).length = 33 := by
      simp [chunk_bytes_length, signature, header, be, hcrc4, lit]
    unfold file
    rw [List.append_assoc (signature ++ _), ← hl]
    simp
  obtain ⟨s, h1, h2, h3, h4⟩ := chunkLoop_spec cs ((file w h depth ct hcrc cs ecrc).length + 1) 33 ⟨[], none, []⟩
    (fun c hc => good_of (hcs c hc) (hne c hc))
    (by
      have := length_le_flatten cs
      simp only [file, List.length_append]
      omega) hdrop
  exact ⟨s, h1, by simpa using h2, by simpa using h3, h4⟩

theorem walk_file {w h depth ct : Nat} {hcrc ecrc : Bytes} {cs : List Chunk} (hcrc4 : hcrc.length = 4)
    (hcs : ∀ c ∈ cs, ProperChunk ct c) (hne : ∀ c ∈ cs, c.data ≠ []) :
    ∃ s, chunkLoop (file w h depth ct hcrc cs ecrc) ct ((file w h depth ct hcrc cs ecrc).length + 1) 33 ⟨[], none, []⟩ = .ok s ∧
      s.data = idat cs ∧ s.pal = palette [] cs := by
  obtain ⟨s, h1, h2, h3, -⟩ := walk_all (w := w) (h := h) (depth := depth) (ecrc := ecrc) hcrc4 hcs hne
  exact ⟨s, h1, h2, h3⟩

/-- **C32** For every proper PNG file of colour type grey, RGB or indexed without empty chunks, the data embedded are the
concatenation of all its `IDAT` chunks in order, whatever other chunks stand between them; size, depth and palette are the
file's.  The condition is needed (`empty_chunk_loses_data_fails`). -/
theorem png_data_collected {inflate : Bytes → Option Bytes} {deflate : Bytes → Bytes} {w h depth ct : Nat}
    {hcrc ecrc : Bytes} {cs : List Chunk} (hw : w < 2 ^ 32) (hh : h < 2 ^ 32) (hdep : depth ≤ 8)
    (hct : ct = 0 ∨ ct = 2 ∨ ct = 3) (hcrc4 : hcrc.length = 4) (hcs : ∀ c ∈ cs, ProperChunk ct c)
    (hne : ∀ c ∈ cs, c.data ≠ [])
    (hpal : ct = 3 → ∃ b ∈ palette [] cs, b ≠ 32 ∧ ¬ (9 ≤ b ∧ b ≤ 13)) :
    ∃ info, parsePng inflate deflate (file w h depth ct hcrc cs ecrc) = .ok info ∧
      info.data = idat cs ∧ info.smask = none ∧ info.w = w ∧ info.h = h ∧ info.bpc = depth ∧ info.pal = palette [] cs ∧
      info.colors = (if ct = 2 then 3 else 1) := by
  obtain ⟨s, h1, h2, h3⟩ := walk_file (w := w) (h := h) (depth := depth) (ecrc := ecrc) hcrc4 hcs hne
  have := parsePng_file (inflate := inflate) (deflate := deflate) hw hh hdep (by omega) hcrc4 s h1 (by
    intro hc
    obtain ⟨b, hb, hb1, hb2⟩ := hpal hc
    rw [h3, List.all_eq_false]
    exact ⟨b, hb, by simp [hb1]; intro hx; by_contra hy; exact hb2 ⟨hx, by simpa using hy⟩⟩)
  rw [if_neg (by omega)] at this
  refine ⟨_, this, h2, rfl, rfl, rfl, rfl, h3, ?_⟩
  simp only
  split <;> split <;> first | rfl | omega

/-- **C32** Which pictures are refused: whatever file is taken begins with the signature and an `IHDR` chunk, has at most 8 bits per
sample (so 16-bit pictures are refused), one of the five colour types, compression and filter method 0 and no interlacing; its size
and depth are those recorded. -/
theorem png_taken_only {inflate : Bytes → Option Bytes} {deflate : Bytes → Bytes} {d : Bytes} {info : Info}
    (h : parsePng inflate deflate d = .ok info) :
    d.take 8 = signature ∧ (d.drop 12).take 4 = lit "IHDR" ∧
    (∃ depth ct, d[24]? = some depth ∧ depth.toNat ≤ 8 ∧ info.bpc = depth.toNat ∧ d[25]? = some ct ∧ ct.toNat ∈ [0, 2, 3, 4, 6]) ∧
    d[26]? = some 0 ∧ d[27]? = some 0 ∧ d[28]? = some 0 := by
  have one : ∀ {p : Nat} {r : Bytes × Nat}, readBytes d p 1 = .ok r → ∃ b, d[p]? = some b ∧ r.1 = [b] := by
    intro p r hr
    unfold readBytes at hr
    split at hr
    · cases hr
    · obtain rfl := Except.ok.inj hr
      rename_i hlt
      have hp : p < d.length := by by_contra hx; simp at hlt hx; omega
      refine ⟨d[p], by simp [hp], ?_⟩
      have : 1 - min 1 (d.length - p) = 0 := by omega
      rw [List.drop_eq_getElem_cons hp] at *; simp [this, List.take]
  have many : ∀ {p n : Nat} {r : Bytes × Nat} {want : Bytes}, readBytes d p n = .ok r → r.1 = want → (0 : UInt8) ≠ want.getLast?.getD 0 →
      (d.drop p).take n = want := by
    intro p n r want hr he hl
    unfold readBytes at hr
    split at hr
    · cases hr
    · obtain rfl := Except.ok.inj hr
      dsimp only at he
      by_cases hz : n - ((d.drop p).take n).length = 0
      · rw [hz] at he; simpa using he
      · exfalso; apply hl; rw [← he, List.getLast?_append]
        obtain ⟨k, hk⟩ := Nat.exists_eq_succ_of_ne_zero hz
        rw [hk]; simp [List.getLast?_replicate]
  have guard : ∀ {α : Type} {p : Prop} [Decidable p] {k : PUnit → Res α} {k' : Res α} {x : α},
      (if p then (throw .err : Res PUnit) >>= k else k') = .ok x → ¬ p ∧ k' = .ok x := by
    intro α p _ k k' x hx
    by_cases hp : p
    · rw [if_pos hp] at hx; cases hx
    · rw [if_neg hp] at hx; exact ⟨hp, hx⟩
  dsimp only [parsePng] at h
  rw [TTF.bind_ok] at h; obtain ⟨⟨m, _⟩, h1, h⟩ := h; try dsimp only at h
  obtain ⟨g1, h⟩ := guard h
  rw [TTF.bind_ok] at h; obtain ⟨⟨i, _⟩, h2, h⟩ := h; try dsimp only at h
  obtain ⟨g2, h⟩ := guard h
  rw [TTF.bind_ok] at h; obtain ⟨⟨w, _⟩, -, h⟩ := h; try dsimp only at h
  rw [TTF.bind_ok] at h; obtain ⟨⟨hh, _⟩, -, h⟩ := h; try dsimp only at h
  rw [TTF.bind_ok] at h; obtain ⟨⟨b, _⟩, h3, h⟩ := h; try dsimp only at h
  obtain ⟨g3, h⟩ := guard h
  rw [TTF.bind_ok] at h; obtain ⟨⟨c, _⟩, h4, h⟩ := h; try dsimp only at h
  obtain ⟨g4, h⟩ := guard h
  rw [TTF.bind_ok] at h; obtain ⟨⟨cm, _⟩, h5, h⟩ := h; try dsimp only at h
  obtain ⟨g5, h⟩ := guard h
  rw [TTF.bind_ok] at h; obtain ⟨⟨fm, _⟩, h6, h⟩ := h; try dsimp only at h
  obtain ⟨g6, h⟩ := guard h
  rw [TTF.bind_ok] at h; obtain ⟨⟨il, _⟩, h7, h⟩ := h; try dsimp only at h
  obtain ⟨g7, h⟩ := guard h
  rw [TTF.bind_ok] at h; obtain ⟨s, -, h⟩ := h; try dsimp only at h
  obtain ⟨-, h⟩ := guard h
  have hb : info.bpc = (b.getD 0 0).toNat := by
    split at h
    · split at h
      · cases h
      · split at h <;> rw [TTF.bind_ok] at h <;> obtain ⟨⟨x, y⟩, -, h⟩ := h <;> cases h <;> rfl
    · cases h; rfl
  obtain ⟨b', e3, rfl⟩ := one h3
  obtain ⟨c', e4, rfl⟩ := one h4
  obtain ⟨cm', e5, rfl⟩ := one h5
  obtain ⟨fm', e6, rfl⟩ := one h6
  obtain ⟨il', e7, rfl⟩ := one h7
  simp only [List.getD_cons_zero] at g3 g4 hb
  refine ⟨?_, ?_, ⟨b', c', e3, by omega, hb, e4, ?_⟩, ?_, ?_, ?_⟩
  · have := many h1 (want := signature) (by simpa [signature] using g1) (by decide)
    simpa using this
  · exact many h2 (by simpa using g2) (by decide)
  · simp; omega
  · simpa using (by simpa using g5 : cm' = 0) ▸ e5
  · simpa using (by simpa using g6 : fm' = 0) ▸ e6
  · simpa using (by simpa using g7 : il' = 0) ▸ e7

/-- What a PDF reader gets from an embedded stream: `FlateDecode`, then predictor 15 with the given number of colours, 8 bits
per component. -/
def pdfDecode (inflate : Bytes → Option Bytes) (colors w h : Nat) (stream : Bytes) : Option (List Bytes) :=
  (inflate stream).bind (decode colors w [] h)

/-- **C31** RGBA: for every proper file without empty chunks whose image data are valid, the embedded colour stream decodes to
the red, green and blue samples of the image, and the soft mask to its alpha samples, for every pixel. -/
theorem rgba_split_lossless {inflate : Bytes → Option Bytes} {deflate : Bytes → Bytes}
    (hz : ∀ x, inflate (deflate x) = some x) {w h : Nat} {hcrc ecrc : Bytes} {cs : List Chunk} (hw : w < 2 ^ 32)
    (hh : h < 2 ^ 32) (hcrc4 : hcrc.length = 4) (hcs : ∀ c ∈ cs, ProperChunk 6 c) (hne : ∀ c ∈ cs, c.data ≠ [])
    {lines : List Bytes} (himg : (inflate (idat cs)).bind (decode 4 w [] h) = some lines) :
    ∃ info sm color alpha, parsePng inflate deflate (file w h 8 6 hcrc cs ecrc) = .ok info ∧ info.smask = some sm ∧
      info.colors = 3 ∧ info.bpc = 8 ∧ info.w = w ∧ info.h = h ∧
      pdfDecode inflate info.colors w h info.data = some color ∧ pdfDecode inflate 1 w h sm = some alpha ∧
      ∀ y x, y < h → x < w →
        (∀ k < 3, sample 3 color y x k = sample 4 lines y x k ∧ ∃ v, sample 4 lines y x k = some v) ∧
        sample 1 alpha y x 0 = sample 4 lines y x 3 ∧ ∃ v, sample 4 lines y x 3 = some v := by
  obtain ⟨s, h1, h2, h3⟩ := walk_file (w := w) (h := h) (depth := 8) (ecrc := ecrc) hcrc4 hcs hne
  have hp := parsePng_file (inflate := inflate) (deflate := deflate) hw hh (by decide) (by decide) hcrc4 s h1 (by simp)
  rw [if_pos (by decide), h2] at hp
  rw [Option.bind_eq_some_iff] at himg
  obtain ⟨z, hz1, hz2⟩ := himg
  rw [hz1] at hp
  simp only [if_neg (by decide : ¬ (6 : Nat) = 4)] at hp
  have hsp := splitLines_ok (split := splitRGBA) h 0 [] [] [] lines (by simpa using hz2)
  rw [hsp] at hp
  simp only [Nat.mul_zero, List.drop_zero, List.nil_append] at hp
  obtain ⟨lc, c1, c2, c3⟩ := decode_pick selectRGB (picksRGB w) h z [] [] lines hz2 (by simp)
  obtain ⟨la, a1, a2, a3⟩ := decode_pick selectRGBAlpha (picksRGBAlpha w) h z [] [] lines hz2 (by simp)
  have hlen := (decode_lines (by decide) _ _ _ _ hz2).1
  refine ⟨_, _, lc, la, hp, rfl, rfl, rfl, rfl, rfl, ?_, ?_, ?_⟩
  · simp only [pdfDecode, hz, Option.bind_some]; exact c1
  · simp only [pdfDecode, hz, Option.bind_some]; exact a1
  · intro y x hy hx
    refine ⟨fun k hk => ?_, ?_⟩
    · exact sample_rel (picksRGB w).inside c2 c3 (by omega) (by omega) (by omega)
    · exact sample_rel (picksRGBAlpha w).inside a2 a3 (by omega) (by omega) (by omega)

/-- **C31** Grey and alpha. -/
theorem grey_alpha_split_lossless {inflate : Bytes → Option Bytes} {deflate : Bytes → Bytes}
    (hz : ∀ x, inflate (deflate x) = some x) {w h : Nat} {hcrc ecrc : Bytes} {cs : List Chunk} (hw : w < 2 ^ 32)
    (hh : h < 2 ^ 32) (hcrc4 : hcrc.length = 4) (hcs : ∀ c ∈ cs, ProperChunk 4 c) (hne : ∀ c ∈ cs, c.data ≠ [])
    {lines : List Bytes} (himg : (inflate (idat cs)).bind (decode 2 w [] h) = some lines) :
    ∃ info sm grey alpha, parsePng inflate deflate (file w h 8 4 hcrc cs ecrc) = .ok info ∧ info.smask = some sm ∧
      info.colors = 1 ∧ info.bpc = 8 ∧ info.w = w ∧ info.h = h ∧
      pdfDecode inflate info.colors w h info.data = some grey ∧ pdfDecode inflate 1 w h sm = some alpha ∧
      ∀ y x, y < h → x < w →
        (sample 1 grey y x 0 = sample 2 lines y x 0 ∧ ∃ v, sample 2 lines y x 0 = some v) ∧
        sample 1 alpha y x 0 = sample 2 lines y x 1 ∧ ∃ v, sample 2 lines y x 1 = some v := by
  obtain ⟨s, h1, h2, h3⟩ := walk_file (w := w) (h := h) (depth := 8) (ecrc := ecrc) hcrc4 hcs hne
  have hp := parsePng_file (inflate := inflate) (deflate := deflate) hw hh (by decide) (by decide) hcrc4 s h1 (by simp)
  rw [if_pos (by decide), h2] at hp
  rw [Option.bind_eq_some_iff] at himg
  obtain ⟨z, hz1, hz2⟩ := himg
  rw [hz1] at hp
  simp only [if_true] at hp
  have hsp := splitLines_ok (split := splitGA) h 0 [] [] [] lines (by simpa using hz2)
  rw [hsp] at hp
  simp only [Nat.mul_zero, List.drop_zero, List.nil_append] at hp
  obtain ⟨lc, c1, c2, c3⟩ := decode_pick selectGrey (picksGrey w) h z [] [] lines hz2 (by simp)
  obtain ⟨la, a1, a2, a3⟩ := decode_pick selectGreyAlpha (picksGreyAlpha w) h z [] [] lines hz2 (by simp)
  have hlen := (decode_lines (by decide) _ _ _ _ hz2).1
  refine ⟨_, _, lc, la, hp, rfl, rfl, rfl, rfl, rfl, ?_, ?_, ?_⟩
  · simp only [pdfDecode, hz, Option.bind_some]; exact c1
  · simp only [pdfDecode, hz, Option.bind_some]; exact a1
  · intro y x hy hx
    refine ⟨?_, ?_⟩
    · exact sample_rel (picksGrey w).inside c2 c3 (by omega) (by omega) (by omega)
    · exact sample_rel (picksGreyAlpha w).inside a2 a3 (by omega) (by omega) (by omega)

/-! ### Concrete cases -/

/-- A 2 by 2 grey image whose data are spread over two `IDAT` chunks with another chunk between them. -/
def demoChunks : List Chunk :=
  [⟨lit "gAMA", [0, 0, 177, 143], [1, 2, 3, 4]⟩, ⟨lit "IDAT", [1, 2, 3], [0, 0, 0, 0]⟩,
   ⟨lit "tEXt", [65, 0, 66], [9, 9, 9, 9]⟩, ⟨lit "IDAT", [4, 5], [0, 0, 0, 0]⟩]

theorem demoChunks_proper : ∀ c ∈ demoChunks, ProperChunk 0 c ∧ c.data ≠ [] := by
  intro c hc
  simp only [demoChunks, List.mem_cons, List.not_mem_nil, or_false] at hc
  rcases hc with rfl | rfl | rfl | rfl <;>
    exact ⟨⟨by decide, by decide, by decide, by decide, fun h => absurd h (by decide)⟩, by decide⟩

example : idat demoChunks = [1, 2, 3, 4, 5] := by decide

example : ∃ info, parsePng some id (file 2 2 8 0 [0, 0, 0, 0] demoChunks [0, 0, 0, 0]) = .ok info ∧
    info.data = [1, 2, 3, 4, 5] := by
  obtain ⟨info, h1, h2, -⟩ := png_data_collected (inflate := some) (deflate := id) (w := 2) (h := 2) (depth := 8)
    (ct := 0) (hcrc := [0, 0, 0, 0]) (ecrc := [0, 0, 0, 0]) (cs := demoChunks) (by decide) (by decide) (by decide) (by decide)
    (by decide) (fun c hc => (demoChunks_proper c hc).1) (fun c hc => (demoChunks_proper c hc).2) (by simp)
  exact ⟨info, h1, by rw [h2]; decide⟩

/-- A 1 by 2 RGBA image, filter types 4 (Paeth) and 1: decodable, so the hypothesis of `rgba_split_lossless` holds. -/
example : (some [4, 10, 20, 30, 255, 2, 1, 1, 1, 1]).bind (decode 4 1 [] 2) =
    some [[10, 20, 30, 255], [11, 21, 31, 0]] := by decide

/-- **C32** fails for files with an empty chunk: an empty `IDAT` (legal, and written by some encoders) ends the walk, and the
image data after it are lost. -/
theorem empty_chunk_loses_data_fails :
    ∃ (inflate : Bytes → Option Bytes) (deflate : Bytes → Bytes) (cs : List Chunk) (info : Info),
      (∀ c ∈ cs, ProperChunk 0 c) ∧ parsePng inflate deflate (file 1 1 8 0 [0, 0, 0, 0] cs [0, 0, 0, 0]) = .ok info ∧
      info.data = [1, 2] ∧ idat cs = [1, 2, 3, 4] := by
  refine ⟨some, id, [⟨lit "IDAT", [1, 2], [0, 0, 0, 0]⟩, ⟨lit "IDAT", [], [0, 0, 0, 0]⟩, ⟨lit "IDAT", [3, 4], [0, 0, 0, 0]⟩],
    ⟨1, 1, 8, lit "DeviceGray", 1, [], none, [1, 2], none⟩, ?_, by decide +kernel, rfl, by decide⟩
  intro c hc
  simp only [List.mem_cons, List.not_mem_nil, or_false] at hc
  rcases hc with rfl | rfl | rfl <;>
    exact ⟨by decide, by decide, by decide, by decide, fun h => absurd h (by decide)⟩

end Verif.PNG
