import Verif.Model.TTF
import Verif.Spec.Cmap
namespace Verif.TTF
open Verif.CmapSpec

theorem bind_ok {α β : Type} {x : Res α} {f : α → Res β} {b : β} :
    (x >>= f) = .ok b ↔ ∃ a, x = .ok a ∧ f a = .ok b := by
  cases x <;> simp [bind, Except.bind]

theorem throw_ne {β : Type} {e : Fault} {b : β} : (throw e : Res β) = .ok b ↔ False := by
  simp [throw, throwThe, MonadExceptOf.throw]

theorem pure_ok {β : Type} {a b : β} : (pure a : Res β) = .ok b ↔ a = b := by
  simp [pure, Except.pure]

theorem byte_fun {d : Bytes} {p m n : Nat} (h : byte d p m) (h' : byte d p n) : m = n := by
  obtain ⟨a, ha, rfl⟩ := h
  obtain ⟨b, hb, rfl⟩ := h'
  simp_all

theorem U16_fun {d : Bytes} {p m n : Nat} (h : U16 d p m) (h' : U16 d p n) : m = n := by
  obtain ⟨a, b, ha, hb, rfl⟩ := h
  obtain ⟨a', b', ha', hb', rfl⟩ := h'
  rw [byte_fun ha ha', byte_fun hb hb']

theorem u16_ok {d : Bytes} {p n : Nat} : u16 d p = .ok n ↔ U16 d p n := by
  unfold u16 U16 byte
  constructor
  · intro h
    split at h
    · next a b ha hb =>
      simp at h
      exact ⟨_, _, ⟨a, ha, rfl⟩, ⟨b, hb, rfl⟩, by omega⟩
    · simp at h
  · rintro ⟨_, _, ⟨a, ha, rfl⟩, ⟨b, hb, rfl⟩, rfl⟩
    simp [ha, hb]; omega

theorem U16_lt {d : Bytes} {p n : Nat} (h : U16 d p n) : n < 65536 := by
  obtain ⟨_, _, ⟨a, ha, rfl⟩, ⟨b, hb, rfl⟩, rfl⟩ := h
  have := a.toNat_lt; have := b.toNat_lt; omega

theorem u32_ok {d : Bytes} {p n : Nat} : u32 d p = .ok n ↔ U32 d p n := by
  unfold u32 U32 U16 byte
  constructor
  · intro h
    split at h
    · next a b c e ha hb hc he =>
      simp at h
      refine ⟨256 * a.toNat + b.toNat, 256 * c.toNat + e.toNat, ⟨_, _, ⟨a, ha, rfl⟩, ⟨b, hb, rfl⟩, rfl⟩,
        ⟨_, _, ⟨c, hc, rfl⟩, ⟨e, he, rfl⟩, rfl⟩, by omega⟩
    · simp at h
  · rintro ⟨_, _, ⟨_, _, ⟨a, ha, rfl⟩, ⟨b, hb, rfl⟩, rfl⟩, ⟨_, _, ⟨c, hc, rfl⟩, ⟨e, he, rfl⟩, rfl⟩, rfl⟩
    have hc' : d[p + 2]? = some c := hc
    have he' : d[p + 3]? = some e := he
    simp [ha, hb, hc', he']; omega

theorem U32_fun {d : Bytes} {p m n : Nat} (h : U32 d p m) (h' : U32 d p n) : m = n := by
  obtain ⟨a, b, ha, hb, rfl⟩ := h
  obtain ⟨a', b', ha', hb', rfl⟩ := h'
  rw [U16_fun ha ha', U16_fun hb hb']

theorem u16s_ok {d : Bytes} : ∀ {k p : Nat} {l : List Nat}, u16s d p k = .ok l →
    l.length = k ∧ ∀ (i : Nat) x, l[i]? = some x → U16 d (p + 2 * i) x := by
  intro k
  induction k with
  | zero => intro p l h; simp [u16s] at h; subst h; simp
  | succ k ih =>
    intro p l h
    simp only [u16s, bind_ok, pure_ok] at h
    obtain ⟨x, hx, xs, hxs, rfl⟩ := h
    obtain ⟨h1, h2⟩ := ih hxs
    refine ⟨by simp [h1], ?_⟩
    intro i y hy
    cases i with
    | zero => simp at hy; subst hy; exact u16_ok.1 hx
    | succ i =>
      have := h2 i y (by simpa using hy)
      rwa [show p + 2 + 2 * i = p + 2 * (i + 1) by omega] at this

theorem u16s_get {d : Bytes} {k p i : Nat} {l : List Nat} (h : u16s d p k = .ok l) (hi : i < k) :
    ∃ x, l[i]? = some x ∧ U16 d (p + 2 * i) x := by
  obtain ⟨h1, h2⟩ := u16s_ok h
  have hl : l[i]? = some (l[i]'(by omega)) := List.getElem?_eq_getElem _
  exact ⟨_, hl, h2 _ _ hl⟩

/-- The search loop finds the first segment whose end code is not below the code. -/
theorem segIndex_spec {ec : List Nat} {sc v : Nat} : ∀ {fuel : Nat}, fuel ≤ sc →
    sc - fuel ≤ segIndex ec sc v fuel ∧ segIndex ec sc v fuel ≤ sc ∧
    (segIndex ec sc v fuel < sc → v ≤ ec.getD (segIndex ec sc v fuel) 0) ∧
    (∀ j, sc - fuel ≤ j → j < segIndex ec sc v fuel → ec.getD j 0 < v) := by
  intro fuel
  induction fuel with
  | zero => intro _; simp [segIndex]; intro j h1 h2; omega
  | succ n ih =>
    intro hf
    have := ih (by omega)
    simp only [segIndex]
    split
    · next h =>
      refine ⟨by omega, by omega, fun _ => h, fun j h1 h2 => by omega⟩
    · next h =>
      obtain ⟨h1, h2, h3, h4⟩ := this
      refine ⟨by omega, h2, h3, fun j hj hj' => ?_⟩
      by_cases e : j = sc - (n + 1)
      · subst e; omega
      · exact h4 j (by omega) hj'

/-- The parsed arrays are the fields of the file. -/
structure Parsed4 (d : Bytes) (b : Nat) (c : Cmap4) : Prop where
  fmt : IsFormat4 d b c.segCount
  ec : ∀ i < c.segCount, ∃ x, c.endCount[i]? = some x ∧ EndCode d b i x
  st : ∀ i < c.segCount, ∃ x, c.startCount[i]? = some x ∧ StartCode d b c.segCount i x
  dl : ∀ i < c.segCount, ∃ x, c.idDelta[i]? = some x ∧ Delta d b c.segCount i x
  ro : ∀ i < c.segCount, ∃ x, c.idRangeOffset[i]? = some x ∧ RangeOffset d b c.segCount i x
  stLen : c.startCount.length = c.segCount
  ga : ∀ (i : Nat) x, c.glyphIdArray[i]? = some x → U16 d (b + 16 + 8 * c.segCount + 2 * i) x
  len : ∃ len, U16 d (b + 2) len
  gaLen : ∀ len, U16 d (b + 2) len → 16 + 8 * c.segCount ≤ len →
    c.glyphIdArray.length = (len - (16 + 8 * c.segCount)) / 2

theorem parseCmap4_ok {d : Bytes} {b : Nat} {c : Cmap4} (h : parseCmap4 d b = .ok c) : Parsed4 d b c := by
  unfold parseCmap4 at h
  simp only [bind_ok] at h
  obtain ⟨fmt, hf, h⟩ := h
  split at h
  · next hne =>
    simp only [bind_ok] at h
    obtain ⟨a, h1, h2⟩ := h
    simp [throw_ne] at h1
  next hfmt =>
  simp only [ne_eq, Decidable.not_not] at hfmt
  subst hfmt
  obtain ⟨len, hlen, segX2, hs, ec, hec, st, hst, dl, hdl, ro, hro, ga, hga, h⟩ := by
    simpa only [bind_ok, pure_ok, exists_and_left, exists_eq_left'] using h
  subst h
  refine ⟨⟨u16_ok.1 hf, _, u16_ok.1 hs, rfl⟩, ?_, ?_, ?_, ?_, (u16s_ok hst).1, ?_, ⟨_, u16_ok.1 hlen⟩, ?_⟩
  · intro i hi; exact u16s_get hec hi
  · intro i hi; exact u16s_get hst hi
  · intro i hi; exact u16s_get hdl hi
  · intro i hi; exact u16s_get hro hi
  · intro i x hx; exact (u16s_ok hga).2 i x hx
  · intro len' hl hle
    have : len' = len := U16_fun hl (u16_ok.1 hlen)
    subst this
    rw [(u16s_ok hga).1, if_pos hle]

theorem getD_of_some {l : List Nat} {i x : Nat} (h : l[i]? = some x) : l.getD i 0 = x := by
  simp [List.getD, h]

/-- A segment found by the loop is the one the specification names. -/
theorem isSegment_of {d : Bytes} {b : Nat} {c : Cmap4} (P : Parsed4 d b c) (v : Nat)
    (h : segIndex c.endCount c.segCount v c.segCount < c.segCount) :
    IsSegment d b c.segCount v (segIndex c.endCount c.segCount v c.segCount) := by
  obtain ⟨_, h2, h3, h4⟩ := segIndex_spec (ec := c.endCount) (sc := c.segCount) (v := v) (Nat.le_refl _)
  refine ⟨h, ?_, ?_⟩
  · obtain ⟨x, hx, he⟩ := P.ec _ h
    exact ⟨x, he, by have := h3 h; rwa [getD_of_some hx] at this⟩
  · intro j hj
    obtain ⟨x, hx, he⟩ := P.ec j (by omega)
    exact ⟨x, he, by have := h4 j (by omega) hj; rwa [getD_of_some hx] at this⟩

theorem isSegment_fun {d : Bytes} {b sc c i j : Nat} (h : IsSegment d b sc c i) (h' : IsSegment d b sc c j) : i = j := by
  obtain ⟨_, ⟨e, he, hc⟩, hl⟩ := h
  obtain ⟨_, ⟨e', he', hc'⟩, hl'⟩ := h'
  rcases Nat.lt_trichotomy i j with hlt | heq | hgt
  · obtain ⟨x, hx, hlt'⟩ := hl' i hlt
    have := U16_fun he hx; omega
  · exact heq
  · obtain ⟨x, hx, hlt'⟩ := hl j hgt
    have := U16_fun he' hx; omega

end Verif.TTF
