import Verif.Lemmas.PNG
namespace Verif.PNG
open Verif.TTF Verif.Embed Verif.PngSpec

/-- The lines of one channel group, each after its filter byte. -/
def pickLines (f : Bytes → Bytes) (L : Nat) : Nat → Bytes → Bytes
  | 0, _ => []
  | _ + 1, [] => []
  | h + 1, ft :: z => ft :: (f (z.take L) ++ pickLines f L h (z.drop L))

theorem splitLines_ok {split : Bytes → Bytes × Bytes} {bpp w : Nat} {z : Bytes} : ∀ (h i : Nat) (prev c a : Bytes) (lines : List Bytes),
    decode bpp w prev h (z.drop ((1 + bpp * w) * i)) = some lines →
    splitLines split (bpp * w) z i h (c, a) =
      .ok (c ++ pickLines (fun l => (split l).1) (bpp * w) h (z.drop ((1 + bpp * w) * i)),
        a ++ pickLines (fun l => (split l).2) (bpp * w) h (z.drop ((1 + bpp * w) * i))) := by
  intro h
  induction h with
  | zero => intro i prev c a lines _; simp [splitLines, pickLines]
  | succ h ih =>
    intro i prev c a lines hd
    generalize hz : z.drop ((1 + bpp * w) * i) = zz at hd
    cases zz with
    | nil => simp [decode] at hd
    | cons ft rest =>
      unfold decode at hd
      simp only at hd
      split at hd
      · cases hd
      next hlen =>
      split at hd
      · cases hd
      next line hline =>
      rw [Option.map_eq_some_iff] at hd
      obtain ⟨ls, hls, rfl⟩ := hd
      have hft : z[(1 + bpp * w) * i]? = some ft := by
        have : (z.drop ((1 + bpp * w) * i))[0]? = some ft := by rw [hz]; rfl
        simpa [List.getElem?_drop] using this
      have hrest : z.drop ((1 + bpp * w) * i + 1) = rest := by rw [← List.drop_drop, hz]; rfl
      have hzl : (1 + bpp * w) * i < z.length := (List.getElem?_eq_some_iff.1 hft).1
      have hle : (1 + bpp * w) * i + 1 + bpp * w ≤ z.length := by
        have := congrArg List.length hrest
        rw [List.length_drop] at this
        omega
      have hsl : slice z ((1 + bpp * w) * i + 1) (bpp * w) = .ok (rest.take (bpp * w)) := by
        unfold slice; rw [if_pos hle, hrest]
      have hnext : z.drop ((1 + bpp * w) * (i + 1)) = rest.drop (bpp * w) := by
        rw [← hrest, List.drop_drop]; congr 1; rw [Nat.mul_add]; omega
      unfold splitLines
      simp only [hft, hsl, bind, Except.bind]
      rw [← hnext] at hls
      rw [ih (i + 1) line _ _ ls hls, hnext]
      simp [pickLines]

/-- Channels of corresponding lines agree. -/
def LineRel (w bpp bpp' : Nat) (φ : Nat → Nat) (l l' : Bytes) : Prop :=
  l.length = bpp * w ∧ l'.length = bpp' * w ∧ ∀ i < bpp' * w, l'.getD i 0 = l.getD (φ i) 0

/-- What the line splitter does. -/
structure Picks (w bpp bpp' : Nat) (φ : Nat → Nat) (f : Bytes → Bytes) : Prop where
  inside : ∀ i < bpp' * w, φ i < bpp * w
  rel : ∀ l : Bytes, l.length = bpp * w → LineRel w bpp bpp' φ l (f l)

theorem decode_pick {w bpp bpp' : Nat} {φ : Nat → Nat} {f : Bytes → Bytes} (S : Select bpp bpp' φ)
    (P : Picks w bpp bpp' φ f) : ∀ (h : Nat) (z prev prev' : Bytes) (lines : List Bytes),
    decode bpp w prev h z = some lines → (∀ i < bpp' * w, prev'.getD i 0 = prev.getD (φ i) 0) →
    ∃ lines', decode bpp' w prev' h (pickLines f (bpp * w) h z) = some lines' ∧ lines'.length = lines.length ∧
      ∀ (y : Nat) l l', lines[y]? = some l → lines'[y]? = some l' → LineRel w bpp bpp' φ l l' := by
  intro h
  induction h with
  | zero =>
    intro z prev prev' lines hd _
    simp only [decode, Option.some.injEq] at hd
    subst hd
    exact ⟨[], rfl, rfl, by simp⟩
  | succ h ih =>
    intro z prev prev' lines hd hprev
    cases z with
    | nil => simp [decode] at hd
    | cons ft rest =>
      unfold decode at hd
      simp only at hd
      split at hd
      · cases hd
      next hlen =>
      split at hd
      · cases hd
      next line hline =>
      rw [Option.map_eq_some_iff] at hd
      obtain ⟨ls, hls, rfl⟩ := hd
      have hraw : (rest.take (bpp * w)).length = bpp * w := by rw [List.length_take]; omega
      obtain ⟨-, q2, q3⟩ := P.rel _ hraw
      -- the picked line can be reconstructed
      obtain ⟨line', hline'⟩ : ∃ line', unfilter bpp' ft prev' [] (f (rest.take (bpp * w))) = some line' := by
        cases hr : rest.take (bpp * w) with
        | nil =>
          have : bpp * w = 0 := by rw [← hraw, hr]; rfl
          have hw : w = 0 := by
            rcases Nat.mul_eq_zero.1 this with h0 | h0
            · have := S.pos; omega
            · exact h0
          rw [hr] at q2
          rw [hw, Nat.mul_zero] at q2
          rw [List.length_eq_zero_iff.1 q2]
          exact ⟨[], rfl⟩
        | cons x xs =>
          rw [hr] at hline
          exact unfilter_total hline _ _
      have hsel := unfilter_select S hline hline' (by rw [q2, hraw]; exact P.inside)
        (by rw [q2]; exact q3) (by rw [q2]; exact hprev)
      rw [q2, hraw] at hsel
      obtain ⟨s1, s2, s3⟩ := hsel
      obtain ⟨ls', i1, i2, i3⟩ := ih (rest.drop (bpp * w)) line line' ls hls s3
      refine ⟨line' :: ls', ?_, by simp [i2], ?_⟩
      · unfold pickLines decode
        simp only
        rw [if_neg (by rw [List.length_append, q2]; omega)]
        rw [List.take_append_of_le_length (by rw [q2]), List.take_of_length_le (by rw [q2]), hline']
        simp only
        have hd : (f (rest.take (bpp * w)) ++ pickLines f (bpp * w) h (rest.drop (bpp * w))).drop (bpp' * w) =
            pickLines f (bpp * w) h (rest.drop (bpp * w)) := by rw [← q2]; simp
        rw [hd, i1]
        rfl
      · intro y l l' hl hl'
        cases y with
        | zero => simp at hl hl'; subst hl; subst hl'; exact ⟨s1, s2, s3⟩
        | succ y => exact i3 y l l' (by simpa using hl) (by simpa using hl')

/-! ### The two splitters -/

theorem splitRGBA_get : ∀ (w : Nat) (l : Bytes), l.length = 4 * w →
    (splitRGBA l).1.length = 3 * w ∧ (splitRGBA l).2.length = w ∧
    (∀ i < 3 * w, (splitRGBA l).1.getD i 0 = l.getD (4 * (i / 3) + i % 3) 0) ∧
    ∀ i < w, (splitRGBA l).2.getD i 0 = l.getD (4 * i + 3) 0 := by
  intro w
  induction w with
  | zero => intro l h; rw [List.length_eq_zero_iff.1 h]; simp [splitRGBA]
  | succ w ih =>
    intro l h
    match l, h with
    | r :: g :: b :: a :: rest, h =>
      obtain ⟨h1, h2, h3, h4⟩ := ih rest (by simp at h; omega)
      refine ⟨by simp [splitRGBA, h1]; omega, by simp [splitRGBA, h2], ?_, ?_⟩
      · intro i hi
        match i with
        | 0 => rfl
        | 1 => rfl
        | 2 => rfl
        | i + 3 =>
          have := h3 i (by omega)
          rw [show (i + 3) / 3 = i / 3 + 1 by omega, show (i + 3) % 3 = i % 3 by omega,
            show 4 * (i / 3 + 1) + i % 3 = 4 * (i / 3) + i % 3 + 1 + 1 + 1 + 1 by omega]
          simpa [splitRGBA] using this
      · intro i hi
        match i with
        | 0 => rfl
        | i + 1 =>
          have := h4 i (by omega)
          rw [show 4 * (i + 1) + 3 = 4 * i + 3 + 1 + 1 + 1 + 1 by omega]
          simpa [splitRGBA] using this
    | [], h => simp at h
    | [_], h => simp at h; omega
    | [_, _], h => simp at h; omega
    | [_, _, _], h => simp at h; omega

theorem splitGA_get : ∀ (w : Nat) (l : Bytes), l.length = 2 * w →
    (splitGA l).1.length = w ∧ (splitGA l).2.length = w ∧
    (∀ i < w, (splitGA l).1.getD i 0 = l.getD (2 * i) 0) ∧
    ∀ i < w, (splitGA l).2.getD i 0 = l.getD (2 * i + 1) 0 := by
  intro w
  induction w with
  | zero => intro l h; rw [List.length_eq_zero_iff.1 h]; simp [splitGA]
  | succ w ih =>
    intro l h
    match l, h with
    | g :: a :: rest, h =>
      obtain ⟨h1, h2, h3, h4⟩ := ih rest (by simp at h; omega)
      refine ⟨by simp [splitGA, h1], by simp [splitGA, h2], ?_, ?_⟩
      · intro i hi
        match i with
        | 0 => rfl
        | i + 1 =>
          have := h3 i (by omega)
          rw [show 2 * (i + 1) = 2 * i + 1 + 1 by omega]
          simpa [splitGA] using this
      · intro i hi
        match i with
        | 0 => rfl
        | i + 1 =>
          have := h4 i (by omega)
          rw [show 2 * (i + 1) + 1 = 2 * i + 1 + 1 + 1 by omega]
          simpa [splitGA] using this
    | [], h => simp at h
    | [_], h => simp at h; omega

theorem selectRGB : Select 4 3 (fun i => 4 * (i / 3) + i % 3) :=
  ⟨by decide, by decide, fun i => by omega, fun i h => by show _ - 4 = _; omega⟩
theorem selectRGBAlpha : Select 4 1 (fun i => 4 * i + 3) :=
  ⟨by decide, by decide, fun i => by omega, fun i h => by show _ - 4 = _; omega⟩
theorem selectGrey : Select 2 1 (fun i => 2 * i) :=
  ⟨by decide, by decide, fun i => by omega, fun i h => by show _ - 2 = _; omega⟩
theorem selectGreyAlpha : Select 2 1 (fun i => 2 * i + 1) :=
  ⟨by decide, by decide, fun i => by omega, fun i h => by show _ - 2 = _; omega⟩

theorem picksRGB (w : Nat) : Picks w 4 3 (fun i => 4 * (i / 3) + i % 3) (fun l => (splitRGBA l).1) :=
  ⟨fun i h => by omega, fun l h => ⟨h, (splitRGBA_get w l h).1, (splitRGBA_get w l h).2.2.1⟩⟩
theorem picksRGBAlpha (w : Nat) : Picks w 4 1 (fun i => 4 * i + 3) (fun l => (splitRGBA l).2) :=
  ⟨fun i h => by omega, fun l h => ⟨h, by rw [Nat.one_mul]; exact (splitRGBA_get w l h).2.1,
    by rw [Nat.one_mul]; exact (splitRGBA_get w l h).2.2.2⟩⟩
theorem picksGrey (w : Nat) : Picks w 2 1 (fun i => 2 * i) (fun l => (splitGA l).1) :=
  ⟨fun i h => by omega, fun l h => ⟨h, by rw [Nat.one_mul]; exact (splitGA_get w l h).1,
    by rw [Nat.one_mul]; exact (splitGA_get w l h).2.2.1⟩⟩
theorem picksGreyAlpha (w : Nat) : Picks w 2 1 (fun i => 2 * i + 1) (fun l => (splitGA l).2) :=
  ⟨fun i h => by omega, fun l h => ⟨h, by rw [Nat.one_mul]; exact (splitGA_get w l h).2.1,
    by rw [Nat.one_mul]; exact (splitGA_get w l h).2.2.2⟩⟩

theorem decode_lines {bpp w : Nat} (hb : 0 < bpp) : ∀ (h : Nat) (prev z : Bytes) (lines : List Bytes),
    decode bpp w prev h z = some lines → lines.length = h ∧ ∀ l ∈ lines, l.length = bpp * w := by
  intro h
  induction h with
  | zero => intro prev z lines hd; simp [decode] at hd; subst hd; simp
  | succ h ih =>
    intro prev z lines hd
    cases z with
    | nil => simp [decode] at hd
    | cons ft rest =>
      unfold decode at hd
      simp only at hd
      split at hd
      · cases hd
      next hlen =>
      split at hd
      · cases hd
      next line hline =>
      rw [Option.map_eq_some_iff] at hd
      obtain ⟨ls, hls, rfl⟩ := hd
      obtain ⟨i1, i2⟩ := ih _ _ _ hls
      refine ⟨by simp [i1], ?_⟩
      intro l hl
      rcases List.mem_cons.1 hl with rfl | hl
      · have := (unfilter_get hb _ _ _ hline).1
        rw [this, List.length_take]; simp; omega
      · exact i2 l hl

/-- Samples of related pictures. -/
theorem sample_rel {w bpp bpp' : Nat} {φ : Nat → Nat} {lines lines' : List Bytes} (hin : ∀ i < bpp' * w, φ i < bpp * w)
    (hlen : lines'.length = lines.length)
    (hrel : ∀ (y : Nat) l l', lines[y]? = some l → lines'[y]? = some l' → LineRel w bpp bpp' φ l l')
    {y x k k' : Nat} (hx : bpp' * x + k' < bpp' * w) (hφ : φ (bpp' * x + k') = bpp * x + k) (hy : y < lines.length) :
    sample bpp' lines' y x k' = sample bpp lines y x k ∧ ∃ v, sample bpp lines y x k = some v := by
  have h1 : lines[y]? = some lines[y] := List.getElem?_eq_getElem hy
  have h2 : lines'[y]? = some (lines'[y]'(by omega)) := List.getElem?_eq_getElem _
  obtain ⟨r1, r2, r3⟩ := hrel y _ _ h1 h2
  have := r3 _ hx
  have hb := hin _ hx
  rw [hφ] at this hb
  unfold sample
  rw [h1, h2]
  simp only [Option.bind_some]
  rw [List.getD_eq_getElem?_getD, List.getD_eq_getElem?_getD, List.getElem?_eq_getElem (by omega), List.getElem?_eq_getElem (by omega)] at this
  simp only [Option.getD_some] at this
  rw [List.getElem?_eq_getElem (by omega), List.getElem?_eq_getElem (by omega), this]
  exact ⟨rfl, _, rfl⟩

end Verif.PNG
