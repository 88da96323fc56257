import Verif.Model.ImageSize
import Mathlib.Tactic.Linarith
/- C51: the size of images. -/
namespace Verif.Props
open ImageSize Units

/-- The size of the `n`-th image of a history: the size given, in points; without one, the size the first use of the same image
got, and for the first use the pixels at 128 to the inch. -/
def ImageSized (cfg : Cfg) (px : List UInt8 → Nat × Nat) (uses : List (List UInt8 × Option Rect)) (out : List Rect) (n : Nat) : Prop :=
  ∀ id rect, uses[n]? = some (id, rect) → ∃ r, out[n]? = some r ∧ match rect with
    | some given => r = given.toPointsT cfg.unit
    | none => (∃ (m : Nat) (rect' : Option Rect), m < n ∧ uses[m]? = some (id, rect') ∧ (∀ k < m, ∀ rk, uses[k]? ≠ some (id, rk)) ∧ out[m]? = some r) ∨
        ((∀ k < n, ∀ rk, uses[k]? ≠ some (id, rk)) ∧ naturalRect (px id).1 (px id).2 = some r)

/-- The cache after the uses `done`. -/
private def Known (doneUses : List (List UInt8 × Option Rect)) (doneSizes : List Rect) (cache : Cache) : Prop :=
  ∀ id, match cache.find? (fun p => p.1 = id) with
    | some p => ∃ (m : Nat) (rect' : Option Rect), doneUses[m]? = some (id, rect') ∧ (∀ k < m, ∀ rk, doneUses[k]? ≠ some (id, rk)) ∧ doneSizes[m]? = some p.2
    | none => ∀ (k : Nat) rk, doneUses[k]? ≠ some (id, rk)

private theorem known_step {px : List UInt8 → Nat × Nat} {du : List (List UInt8 × Option Rect)} {ds : List Rect} {cache cache' : Cache}
    {id : List UInt8} {rect rect0 : Option Rect} {r : Rect} (hl : du.length = ds.length) (hk : Known du ds cache)
    (h : sizeFor px cache id rect = some (cache', r)) : Known (du ++ [(id, rect0)]) (ds ++ [r]) cache' := by
  have old : ∀ (id' : List UInt8) (p : List UInt8 × Rect), (∃ (m : Nat) (rect' : Option Rect), du[m]? = some (id', rect') ∧
      (∀ k < m, ∀ rk, du[k]? ≠ some (id', rk)) ∧ ds[m]? = some p.2) →
      ∃ (m : Nat) (rect' : Option Rect), (du ++ [(id, rect0)])[m]? = some (id', rect') ∧
      (∀ k < m, ∀ rk, (du ++ [(id, rect0)])[k]? ≠ some (id', rk)) ∧ (ds ++ [r])[m]? = some p.2 := by
    rintro id' p ⟨m, rect', h1, h2, h3⟩
    have hm := (List.getElem?_eq_some_iff.1 h1).1
    refine ⟨m, rect', by rw [List.getElem?_append_left hm]; exact h1, fun k hk rk => ?_, by rw [List.getElem?_append_left (hl ▸ hm)]; exact h3⟩
    rw [List.getElem?_append_left (by omega)]; exact h2 k hk rk
  have none' : ∀ id', id' ≠ id → (∀ (k : Nat) rk, du[k]? ≠ some (id', rk)) → ∀ (k : Nat) rk, (du ++ [(id, rect0)])[k]? ≠ some (id', rk) := by
    intro id' hne hn k rk hc
    rw [List.getElem?_append] at hc
    split at hc
    · exact hn k rk hc
    · rw [List.getElem?_singleton] at hc
      split at hc
      · obtain ⟨rfl, -⟩ := Prod.mk.inj (Option.some.inj hc); exact hne rfl
      · simp at hc
  unfold sizeFor at h
  have hid := hk id
  split at h
  · next p hp =>
    simp only [Option.some.injEq, Prod.mk.injEq] at h
    obtain ⟨rfl, -⟩ := h
    intro id'
    have := hk id'
    split
    · next q hq => rw [hq] at this; exact old id' q this
    · next hq =>
      rw [hq] at this
      exact none' id' (by rintro rfl; rw [hq] at hp; simp at hp) this
  · next hp =>
    rw [hp] at hid
    have hc : cache' = cache ++ [(id, r)] := by
      split at h
      · simp only [Option.some.injEq, Prod.mk.injEq] at h; rw [← h.1, ← h.2]
      · obtain ⟨r', -, h⟩ := Option.map_eq_some_iff.1 h
        simp only [Prod.mk.injEq] at h; rw [← h.1, ← h.2]
    subst hc
    intro id'
    rw [List.find?_append]
    have := hk id'
    cases hq : cache.find? (fun p => p.1 = id') with
    | some q => rw [hq] at this; exact old id' q this
    | none =>
      rw [hq] at this
      by_cases hne : id' = id
      · subst hne
        simp only [List.find?_cons, decide_true, Option.none_or]
        refine ⟨du.length, rect0, by simp, fun k hk rk => ?_, by rw [hl]; simp⟩
        rw [List.getElem?_append_left hk]; exact hid k rk
      · have : ([(id, r)] : Cache).find? (fun p => p.1 = id') = none := by
          simp only [List.find?_cons, List.find?_nil]
          rw [decide_eq_false (fun h => hne h.symm)]
        rw [this]
        simp only [Option.none_or]
        exact none' id' hne (by assumption)

private theorem sizes_spec {cfg : Cfg} {px : List UInt8 → Nat × Nat} : ∀ (rest : List (List UInt8 × Option Rect)) (du : List (List UInt8 × Option Rect))
    (ds : List Rect) (cache : Cache) (out : List Rect), du.length = ds.length → Known du ds cache →
    (∀ n < du.length, ImageSized cfg px (du ++ rest) (ds ++ out) n) → sizes cfg px cache rest = some out →
    ∀ n, ImageSized cfg px (du ++ rest) (ds ++ out) n := by
  intro rest
  induction rest with
  | nil =>
    intro du ds cache out hl _ hd h n
    by_cases hn : n < du.length
    · exact hd n hn
    · intro id rect hx; simp at hx; exact absurd (List.getElem?_eq_some_iff.1 hx).1 hn
  | cons u rest ih =>
    intro du ds cache out hl hk hd h n
    obtain ⟨id, rect⟩ := u
    simp only [sizes] at h
    obtain ⟨⟨cache', r⟩, h1, h⟩ := Option.bind_eq_some_iff.1 h
    obtain ⟨out', h2, rfl⟩ := Option.map_eq_some_iff.1 h
    have hk' := known_step (rect0 := rect) hl hk h1
    have := ih (du ++ [(id, rect)]) (ds ++ [r]) cache' out' (by simp [hl]) hk'
    simp only [List.append_assoc, List.singleton_append] at this
    refine this (fun m hm => ?_) h2 n
    by_cases hm' : m < du.length
    · exact hd m hm'
    · obtain rfl : m = du.length := by simp at hm; omega
      intro id' rect' hx
      rw [List.getElem?_append_right (Nat.le_refl _)] at hx
      simp only [Nat.sub_self, List.getElem?_cons_zero, Option.some.injEq, Prod.mk.injEq] at hx
      obtain ⟨rfl, rfl⟩ := hx
      refine ⟨r, by rw [hl, List.getElem?_append_right (Nat.le_refl _)]; simp, ?_⟩
      unfold sizeFor at h1
      have hid := hk id
      cases hf : cache.find? (fun p => p.1 = id) with
      | some p =>
        rw [hf] at h1 hid
        simp only [Option.some.injEq, Prod.mk.injEq] at h1
        obtain ⟨m, rect', q1, q2, q3⟩ := hid
        have hm2 := (List.getElem?_eq_some_iff.1 q1).1
        cases rect with
        | some given => simpa using h1.2.symm
        | none =>
          refine .inl ⟨m, rect', hm2, by rw [List.getElem?_append_left hm2]; exact q1, fun k hk rk => ?_, ?_⟩
          · rw [List.getElem?_append_left (by omega)]; exact q2 k hk rk
          · rw [List.getElem?_append_left (hl ▸ hm2), q3, ← h1.2]; rfl
      | none =>
        rw [hf] at h1 hid
        cases rect with
        | some given => simp at h1; exact h1.2.symm
        | none =>
          obtain ⟨r', h3, h4⟩ := Option.map_eq_some_iff.1 h1
          simp only [Prod.mk.injEq] at h4
          refine .inr ⟨fun k hk rk => ?_, by rw [h3, h4.2]⟩
          rw [List.getElem?_append_left hk]; exact hid k rk

/-- **C51** In every history of image drawings (and of images used as masks), an image drawn with a size has that size; without
one it has the size of the first use of the same image, and if there was none, its natural size. -/
theorem image_sizes (cfg : Cfg) (px : List UInt8 → Nat × Nat) (uses : List (List UInt8 × Option Rect)) (out : List Rect)
    (h : sizes cfg px [] uses = some out) (n : Nat) : ImageSized cfg px uses out n := by
  have := sizes_spec uses [] [] [] out rfl (fun id => by simp) (by simp) h n
  simpa using this

example : sizes ⟨1, 0⟩ (fun id => if id = [1] then (640, 480) else (128, 64)) [] [([1], none), ([2], some { w := 30, h := 40 }), ([1], some { w := 5, h := 6 }), ([2], none), ([1], none)] =
    some [{ w := 360, h := 270 }, { w := 30, h := 40 }, { w := 5, h := 6 }, { w := 30, h := 40 }, { w := 360, h := 270 }] := by decide +kernel

/-- **C51** The natural size is the number of pixels at 128 to the inch, in points, rounded down, in each direction. -/
theorem natural_size (dx dy : Nat) (hx : 2 ≤ dx) (hy : 2 ≤ dy) : ∃ r, naturalRect dx dy = some r ∧
    r.w ≤ dx * 72 / 128 ∧ dx * 72 / 128 < r.w + 1 ∧ r.h ≤ dy * 72 / 128 ∧ dy * 72 / 128 < r.h + 1 ∧ 0 < r.w ∧ 0 < r.h := by
  have key : ∀ d : Nat, (-(d : Int) * 72).tdiv (-128) = ((d * 72 / 128 : Nat) : Int) := by
    intro d
    rw [Int.neg_mul, Int.neg_tdiv, Int.tdiv_neg, Int.neg_neg]
    norm_cast
  have pos : ∀ d : Nat, 2 ≤ d → 0 < d * 72 / 128 := fun d hd => by omega
  have b1 : ∀ d : Nat, ((d * 72 / 128 : Nat) : ℚ) ≤ d * 72 / 128 := by
    intro d
    have h : d * 72 / 128 * 128 ≤ d * 72 := Nat.div_mul_le_self _ _
    have h : ((d * 72 / 128 : Nat) : ℚ) * 128 ≤ d * 72 := by exact_mod_cast h
    linarith
  have b2 : ∀ d : Nat, (d : ℚ) * 72 / 128 < ((d * 72 / 128 : Nat) : ℚ) + 1 := by
    intro d
    have h : d * 72 < (d * 72 / 128 + 1) * 128 := by omega
    have h : (d : ℚ) * 72 < (((d * 72 / 128 : Nat) : ℚ) + 1) * 128 := by exact_mod_cast h
    linarith
  have hw := pos dx hx
  have hh := pos dy hy
  have nw : ((dx * 72 / 128 : Nat) : Int) ≠ 0 := by omega
  have nh : ((dy * 72 / 128 : Nat) : Int) ≠ 0 := by omega
  refine ⟨{ w := ((dx * 72 / 128 : Nat) : Int), h := ((dy * 72 / 128 : Nat) : Int) }, ?_, ?_, ?_, ?_, ?_, ?_, ?_⟩
  · unfold naturalRect
    simp only [key]
    rw [if_neg nw]
    simp only [Option.bind_some]
    rw [if_neg nh]
    rfl
  · simp only [Int.cast_natCast]; exact b1 dx
  · simp only [Int.cast_natCast]; exact b2 dx
  · simp only [Int.cast_natCast]; exact b1 dy
  · simp only [Int.cast_natCast]; exact b2 dy
  · show (0 : ℚ) < (((dx * 72 / 128 : Nat) : Int) : ℚ); exact_mod_cast hw
  · show (0 : ℚ) < (((dy * 72 / 128 : Nat) : Int) : ℚ); exact_mod_cast hh

/-- **C51** The position and size of an image are converted from the document's unit to points. -/
theorem image_converted (cfg : Cfg) (px : List UInt8 → Nat × Nat) (cache cache' : Cache) (o : Options) (index : Nat) (i : Content.ImageItem)
    (given : Rect) (hr : o.rect = some given) (hc : cfg.conv = 0) (hg : given.override.unit = 0)
    (h : drawImage cfg px cache o index = some (cache', i)) :
    i.x = toPoints cfg o.x ∧ i.y = toPoints cfg o.y ∧ i.rect.w = toPoints cfg given.w ∧ i.rect.h = toPoints cfg given.h ∧
    i.imageAngle = o.angle ∧ i.horizontalFlip = o.horizontalFlip ∧ i.verticalFlip = o.verticalFlip ∧ i.index = index := by
  unfold drawImage at h
  obtain ⟨⟨c, r⟩, h1, h2⟩ := Option.map_eq_some_iff.1 h
  simp only [Prod.mk.injEq] at h2
  obtain ⟨-, rfl⟩ := h2
  have : r = given.toPointsT cfg.unit := by
    rw [hr] at h1
    unfold sizeFor at h1
    split at h1
    · simp at h1; exact h1.2.symm
    · simp at h1; exact h1.2.symm
  have hcfg : (⟨cfg.unit, 0⟩ : Cfg) = cfg := by cases cfg; simp at hc; simp [hc]
  subst this
  simp [Rect.toPointsT, hg, hcfg]

/-- **C51** (counterexample)  An image drawn without a size after it was drawn with one does not have its natural size: 640 by 480
pixels, first drawn 10 by 10 points. -/
theorem image_size_remembered_fails :
    sizes ⟨1, 0⟩ (fun _ => (640, 480)) [] [([1], some { w := 10, h := 10 }), ([1], none)] = some [{ w := 10, h := 10 }, { w := 10, h := 10 }] ∧
    naturalRect 640 480 = some { w := 360, h := 270 } := by decide +kernel

/-- **C51** (counterexample)  A crop window is not converted: in a document in millimetres, a window 10 by 10 is 10 by 10 points. -/
theorem crop_not_converted_fails :
    (drawImage ⟨2, 0⟩ (fun _ => (640, 480)) [] { id := [1], x := 0, y := 0, rect := some { w := 100, h := 100 }, crop := some ⟨0, 0, 10, 10⟩ } 5).map
      (fun p => (p.2.crop, decide (p.2.rect.w = 10 * 10 * 72 / (254 / 10)))) = some (some ⟨0, 0, 10, 10⟩, true) := by decide +kernel

/-- **C51** (counterexample)  An image of one pixel has no size. -/
theorem one_pixel_fails : naturalRect 1 1 = some { w := 0, h := 0 } := by decide +kernel

end Verif.Props
