import Verif.Model.PNG
import Verif.Spec.PNG
import Verif.Lemmas.Embed.Layout
namespace Verif.PNG
open Verif.TTF Verif.Embed Verif.PngSpec

/-! ### The chunk walk -/

theorem readBytes_ok {d b rest : Bytes} {pos n : Nat} (h : d.drop pos = b ++ rest) (hn : b.length = n)
    (hne : b ++ rest ≠ []) : readBytes d pos n = .ok (b, pos + n) := by
  have hlt : ¬ d.length ≤ pos := by
    intro hle
    rw [List.drop_eq_nil_of_le hle] at h
    exact hne h.symm
  unfold readBytes
  rw [if_neg hlt, h]
  subst hn
  simp

theorem be_val {n : Nat} (h : n < 2 ^ 32) : (be n).foldl (fun a (x : UInt8) => 256 * a + x.toNat) 0 = n := by
  simp only [be, List.foldl_cons, List.foldl_nil, UInt8.toNat_ofNat']
  omega

theorem readUInt_ok {d rest : Bytes} {pos n : Nat} (h : d.drop pos = be n ++ rest) (hn : n < 2 ^ 32) :
    readUInt d pos = .ok (n, pos + 4) := by
  unfold readUInt
  rw [readBytes_ok h (by rfl) (by simp [be])]
  have := be_val hn
  simp only [bind, Except.bind, pure, Except.pure, this]

theorem drop_more {d a rest : Bytes} {pos n : Nat} (h : d.drop pos = a ++ rest) (hn : a.length = n) :
    d.drop (pos + n) = rest := by
  rw [← List.drop_drop, h, ← hn]; simp

/-- What the walk needs of a chunk. -/
structure Good (ct : Nat) (c : Chunk) : Prop where
  typ : c.typ.length = 4
  crc : c.crc.length = 4
  notEnd : c.typ ≠ lit "IEND"
  nonempty : c.data ≠ []
  small : c.data.length < 2 ^ 32
  trns : c.typ = lit "tRNS" → (ct = 0 → 2 ≤ c.data.length) ∧ (ct = 2 → 6 ≤ c.data.length)

theorem trnsOf_ok {ct : Nat} {t : Bytes} (h0 : ct = 0 → 2 ≤ t.length) (h2 : ct = 2 → 6 ≤ t.length) :
    ∃ r, trnsOf ct t = .ok r := by
  unfold trnsOf
  split
  · next h =>
    have := h0 h
    rw [List.getElem?_eq_getElem (by omega : 1 < t.length)]
    exact ⟨_, rfl⟩
  · split
    · next h =>
      have := h2 h
      rw [List.getElem?_eq_getElem (by omega : 1 < t.length), List.getElem?_eq_getElem (by omega : 3 < t.length),
        List.getElem?_eq_getElem (by omega : 5 < t.length)]
      exact ⟨_, rfl⟩
    · split <;> exact ⟨_, rfl⟩

theorem idat_cons (c : Chunk) (cs : List Chunk) :
    idat (c :: cs) = (if c.typ = lit "IDAT" then c.data else []) ++ idat cs := by
  unfold idat
  by_cases h : c.typ = lit "IDAT" <;> simp [h]

/-- The colour key kept after the chunks. -/
def keyAfter (ct : Nat) : Option Bytes → List Chunk → Option Bytes
  | k, [] => k
  | k, c :: cs => keyAfter ct (if c.typ = lit "tRNS" then (match trnsOf ct c.data with | .ok t => t.or k | .error _ => k) else k) cs

theorem chunkLoop_spec {d : Bytes} {ct : Nat} {ecrc tail : Bytes} : ∀ (cs : List Chunk) (fuel pos : Nat) (s : Chunks),
    (∀ c ∈ cs, Good ct c) → cs.length < fuel →
    d.drop pos = (cs.map Chunk.bytes).flatten ++ ((Chunk.mk (lit "IEND") [] ecrc).bytes ++ tail) →
    ∃ s', chunkLoop d ct fuel pos s = .ok s' ∧ s'.data = s.data ++ idat cs ∧ s'.pal = palette s.pal cs ∧
      s'.trns = keyAfter ct s.trns cs := by
  intro cs
  induction cs with
  | nil =>
    intro fuel pos s _ hf h
    cases fuel with
    | zero => simp at hf
    | succ fuel =>
      have h1 : d.drop pos = be 0 ++ (lit "IEND" ++ (ecrc ++ tail)) := by
        rw [h]; simp [Chunk.bytes, List.append_assoc]
      have h2 := drop_more (n := 4) h1 rfl
      refine ⟨s, ?_, by simp [idat], by simp [palette], rfl⟩
      unfold chunkLoop
      rw [readUInt_ok h1 (by decide)]
      simp only [bind, Except.bind]
      rw [readBytes_ok h2 (by decide) (by simp [lit])]
      simp only [if_true]
      rfl
  | cons c cs ih =>
    intro fuel pos s hg hf h
    cases fuel with
    | zero => simp at hf
    | succ fuel =>
      have G := hg c (by simp)
      have h1 : d.drop pos = be c.data.length ++ (c.typ ++ (c.data ++ (c.crc ++ ((cs.map Chunk.bytes).flatten ++
          ((Chunk.mk (lit "IEND") [] ecrc).bytes ++ tail))))) := by
        rw [h]; simp [Chunk.bytes, List.append_assoc]
      have h2 := drop_more (n := 4) h1 rfl
      have h3 := drop_more h2 G.typ
      have h4 := drop_more h3 rfl
      have h5 := drop_more h4 G.crc
      have hn0 : c.data.length ≠ 0 := by
        intro e; exact G.nonempty (List.length_eq_zero_iff.1 e)
      have htne : c.typ ≠ [] := by intro e; have := G.typ; rw [e] at this; simp at this
      have rd : readBytes d (pos + 4 + 4) c.data.length = .ok (c.data, pos + 4 + 4 + c.data.length) :=
        readBytes_ok h3 rfl (by simp [G.nonempty])
      unfold chunkLoop
      rw [readUInt_ok h1 G.small]
      simp only [bind, Except.bind]
      rw [readBytes_ok h2 G.typ (by simp [htne])]
      simp only [if_neg G.notEnd]
      have hf' : cs.length < fuel := by simp at hf; omega
      have hg' : ∀ c ∈ cs, Good ct c := fun x hx => hg x (by simp [hx])
      by_cases hp : c.typ = lit "PLTE"
      · simp only [if_pos hp, rd, pure, Except.pure, if_neg hn0]
        obtain ⟨s', i1, i2, i3, i4⟩ := ih fuel _ { s with pal := c.data } hg' hf' h5
        refine ⟨s', i1, ?_, ?_, ?_⟩
        · rw [i2, idat_cons, if_neg (by rw [hp]; decide)]; simp
        · rw [i3, palette, if_pos hp]
        · rw [i4, keyAfter, if_neg (by rw [hp]; decide)]
      · by_cases ht : c.typ = lit "tRNS"
        · obtain ⟨r, hr⟩ := trnsOf_ok (G.trns ht).1 (G.trns ht).2
          simp only [if_neg hp, if_pos ht, rd, hr, pure, Except.pure, if_neg hn0]
          obtain ⟨s', i1, i2, i3, i4⟩ := ih fuel _ { s with trns := r.or s.trns } hg' hf' h5
          refine ⟨s', i1, ?_, ?_, ?_⟩
          · rw [i2, idat_cons, if_neg (by rw [ht]; decide)]; simp
          · rw [i3, palette, if_neg hp]
          · rw [i4, keyAfter, if_pos ht, hr]
        · by_cases hi : c.typ = lit "IDAT"
          · simp only [if_neg hp, if_neg ht, if_pos hi, rd, pure, Except.pure, if_neg hn0]
            obtain ⟨s', i1, i2, i3, i4⟩ := ih fuel _ { s with data := s.data ++ c.data } hg' hf' h5
            refine ⟨s', i1, ?_, ?_, ?_⟩
            · rw [i2, idat_cons, if_pos hi]; simp
            · rw [i3, palette, if_neg hp]
            · rw [i4, keyAfter, if_neg ht]
          · simp only [if_neg hp, if_neg ht, if_neg hi, pure, Except.pure, if_neg hn0]
            have h5' := h5
            rw [Nat.add_assoc (pos + 4 + 4)] at h5'
            obtain ⟨s', i1, i2, i3, i4⟩ := ih fuel _ s hg' hf' h5'
            refine ⟨s', i1, ?_, ?_, ?_⟩
            · rw [i2, idat_cons, if_neg hi]; simp
            · rw [i3, palette, if_neg hp]
            · rw [i4, keyAfter, if_neg ht]

/-! ### Filters and channels -/

/-- The line reconstructed byte by byte. -/
theorem unfilter_get {bpp : Nat} {ft : UInt8} {prev : Bytes} (hb : 0 < bpp) : ∀ (raw done out : Bytes),
    unfilter bpp ft prev done raw = some out →
    out.length = done.length + raw.length ∧ (∀ i < done.length, out[i]? = done[i]?) ∧
    ∀ i, i < raw.length → ∃ p, predict ft (if done.length + i < bpp then 0 else out.getD (done.length + i - bpp) 0)
      (prev.getD (done.length + i) 0) (if done.length + i < bpp then 0 else prev.getD (done.length + i - bpp) 0) = some p ∧
      out[done.length + i]? = some (raw.getD i 0 + p) := by
  intro raw
  induction raw with
  | nil =>
    intro done out h
    simp only [unfilter, Option.some.injEq] at h
    subst h
    simp
  | cons x xs ih =>
    intro done out h
    unfold unfilter at h
    simp only at h
    split at h
    · cases h
    next p hp =>
    obtain ⟨i1, i2, i3⟩ := ih _ _ h
    simp only [List.length_append, List.length_cons, List.length_nil] at i1 i2 i3
    have hkeep : ∀ j < done.length, out[j]? = done[j]? := by
      intro j hj
      rw [i2 j (by omega), List.getElem?_append_left hj]
    refine ⟨by simp [i1]; omega, hkeep, ?_⟩
    intro i hi
    cases i with
    | zero =>
      refine ⟨p, ?_, ?_⟩
      · rw [Nat.add_zero, ← hp]
        have : (if done.length < bpp then (0 : UInt8) else out.getD (done.length - bpp) 0) =
            (if done.length < bpp then (0 : UInt8) else done.getD (done.length - bpp) 0) := by
          split
          · rfl
          · simp only [List.getD_eq_getElem?_getD]; rw [hkeep _ (by omega)]
        rw [this]
      · rw [Nat.add_zero, i2 _ (by omega)]
        simp
    | succ i =>
      obtain ⟨q, hq, ho⟩ := i3 i (by simpa using hi)
      refine ⟨q, ?_, ?_⟩
      · rw [← hq, show done.length + (i + 1) = done.length + (0 + 1) + i by omega]
      · rw [show done.length + (i + 1) = done.length + (0 + 1) + i by omega, ho]; simp

/-- A selection of the bytes of a line that keeps pixels together: byte `i` of the selection is byte `φ i` of the line, and
the byte one pixel to the left is selected from the byte one pixel to the left. -/
structure Select (bpp bpp' : Nat) (φ : Nat → Nat) : Prop where
  pos : 0 < bpp
  pos' : 0 < bpp'
  first : ∀ i, φ i < bpp ↔ i < bpp'
  left : ∀ i, bpp' ≤ i → φ i - bpp = φ (i - bpp')

theorem predict_total {ft a b c a' b' c' : UInt8} {p : UInt8} (h : predict ft a b c = some p) :
    ∃ q, predict ft a' b' c' = some q := by
  unfold predict at h ⊢
  split at h <;> first | exact ⟨_, rfl⟩ | cases h

/-- A line that can be reconstructed for some content of the neighbours can be for any. -/
theorem unfilter_total {bpp bpp' : Nat} {ft : UInt8} {prev prev' : Bytes} {x : UInt8} {xs done : Bytes} {out : Bytes}
    (h : unfilter bpp ft prev done (x :: xs) = some out) : ∀ (raw' done' : Bytes), ∃ out', unfilter bpp' ft prev' done' raw' = some out' := by
  intro raw'
  unfold unfilter at h
  simp only at h
  split at h
  · cases h
  next p hp =>
  induction raw' with
  | nil => intro done'; exact ⟨done', rfl⟩
  | cons y ys ih =>
    intro done'
    unfold unfilter
    simp only
    obtain ⟨q, hq⟩ := predict_total (a' := if done'.length < bpp' then 0 else done'.getD (done'.length - bpp') 0)
      (b' := prev'.getD done'.length 0) (c' := if done'.length < bpp' then 0 else prev'.getD (done'.length - bpp') 0) hp
    rw [hq]
    exact ih _

/-- Reconstruction commutes with selecting channels. -/
theorem unfilter_select {bpp bpp' : Nat} {φ : Nat → Nat} (S : Select bpp bpp' φ) {ft : UInt8} {prev prev' raw raw' out out' : Bytes}
    (h : unfilter bpp ft prev [] raw = some out) (h' : unfilter bpp' ft prev' [] raw' = some out')
    (hφ : ∀ i < raw'.length, φ i < raw.length) (hraw : ∀ i < raw'.length, raw'.getD i 0 = raw.getD (φ i) 0)
    (hprev : ∀ i < raw'.length, prev'.getD i 0 = prev.getD (φ i) 0) :
    out.length = raw.length ∧ out'.length = raw'.length ∧ ∀ i < raw'.length, out'.getD i 0 = out.getD (φ i) 0 := by
  obtain ⟨l1, -, g1⟩ := unfilter_get S.pos _ _ _ h
  obtain ⟨l2, -, g2⟩ := unfilter_get S.pos' _ _ _ h'
  simp only [List.length_nil, Nat.zero_add] at l1 l2 g1 g2
  refine ⟨l1, l2, ?_⟩
  intro i
  induction i using Nat.strongRecOn with
  | _ i ih =>
    intro hi
    obtain ⟨p, hp, ho⟩ := g1 (φ i) (hφ i hi)
    obtain ⟨q, hq, ho'⟩ := g2 i hi
    have ha : (if i < bpp' then (0 : UInt8) else out'.getD (i - bpp') 0) =
        (if φ i < bpp then (0 : UInt8) else out.getD (φ i - bpp) 0) := by
      by_cases hlt : i < bpp'
      · rw [if_pos hlt, if_pos ((S.first i).2 hlt)]
      · have := S.pos'
        rw [if_neg hlt, if_neg (fun hc => hlt ((S.first i).1 hc)), S.left i (by omega),
          ih (i - bpp') (by omega) (by omega)]
    have hc : (if i < bpp' then (0 : UInt8) else prev'.getD (i - bpp') 0) =
        (if φ i < bpp then (0 : UInt8) else prev.getD (φ i - bpp) 0) := by
      by_cases hlt : i < bpp'
      · rw [if_pos hlt, if_pos ((S.first i).2 hlt)]
      · have := S.pos'
        rw [if_neg hlt, if_neg (fun hc => hlt ((S.first i).1 hc)), S.left i (by omega),
          hprev (i - bpp') (by omega)]
    rw [ha, hc, hprev i hi, hp] at hq
    cases hq
    simp only [List.getD_eq_getElem?_getD] at *
    rw [ho, ho', hraw i hi]

end Verif.PNG
