import Verif.Model.CharMap
import Mathlib.Data.List.Nodup
/-! C24: characters keep their glyphs. -/
namespace Verif.Props
open Verif.TTF

/-- The maps a font can have: empty at first, then one text after another is added, some calls failing. -/
inductive CharHistory (s : CharSource) : CharMap → Prop
  | start : CharHistory s CharMap.empty
  | add {m : CharMap} (text : List Nat) : CharHistory s m → CharHistory s (addChars s m text).1

/-- Glyph a character is given: the font's own, or 0 when the font has none. -/
def GlyphFor (s : CharSource) (r g : Nat) : Prop :=
  glyphOf s.cmap r = .ok g ∨ (g = 0 ∧ glyphOf s.cmap r = .error .notFound) ∨ (g = 0 ∧ glyphOf s.cmap r = .error .err)

/-- Working invariant. -/
structure MapInv (s : CharSource) (m : CharMap) : Prop where
  nodup : m.keys.Nodup
  len : m.vals.length = m.keys.length
  idx : ∀ k i, m.index k = some i ↔ m.keys[i]? = some k
  glyph : ∀ k g, m.val k = some g → GlyphFor s k g

theorem index_set (m : CharMap) (k v k' : Nat) :
    (m.set k v).index k' = if k = k' then some m.keys.length else m.index k' := by
  simp only [CharMap.set, CharMap.index, List.find?_cons]
  by_cases h : k = k'
  · simp [h]
  · have : (k == k') = false := by simpa using h
    simp [h, this]

theorem MapInv.empty (s : CharSource) : MapInv s CharMap.empty := by
  refine ⟨by simp [CharMap.empty], rfl, ?_, ?_⟩ <;> simp [CharMap.empty, CharMap.index, CharMap.val]

theorem MapInv.index_lt {s : CharSource} {m : CharMap} (h : MapInv s m) {k i : Nat} (hi : m.index k = some i) :
    i < m.keys.length := (List.getElem?_eq_some_iff.1 ((h.idx k i).1 hi)).1

theorem MapInv.keyExists_iff {s : CharSource} {m : CharMap} (h : MapInv s m) (k : Nat) :
    m.keyExists k = true ↔ k ∈ m.keys := by
  unfold CharMap.keyExists
  constructor
  · intro hk
    obtain ⟨i, hi⟩ := Option.isSome_iff_exists.1 hk
    exact List.mem_of_getElem? ((h.idx k i).1 hi)
  · intro hk
    obtain ⟨i, hi, e⟩ := List.getElem_of_mem hk
    have : m.keys[i]? = some k := by rw [List.getElem?_eq_getElem hi, e]
    rw [(h.idx k i).2 this]; rfl

theorem MapInv.val_isSome {s : CharSource} {m : CharMap} (h : MapInv s m) {k : Nat} (hk : m.keyExists k = true) :
    ∃ g, m.val k = some g := by
  unfold CharMap.keyExists at hk
  obtain ⟨i, hi⟩ := Option.isSome_iff_exists.1 hk
  have := h.index_lt hi
  exact ⟨_, by simp only [CharMap.val, hi]; exact List.getElem?_eq_getElem (by rw [h.len]; exact this)⟩

theorem val_set_self {s : CharSource} {m : CharMap} (h : MapInv s m) (k v : Nat) : (m.set k v).val k = some v := by
  have e := index_set m k v k
  rw [if_pos rfl] at e
  unfold CharMap.val
  rw [e]
  simp [CharMap.set, ← h.len]

theorem val_set_ne {s : CharSource} {m : CharMap} (h : MapInv s m) {k k' : Nat} (v : Nat) (hne : k ≠ k') :
    (m.set k v).val k' = m.val k' := by
  have e := index_set m k v k'
  rw [if_neg hne] at e
  unfold CharMap.val
  rw [e]
  cases hi : m.index k' with
  | none => rfl
  | some i =>
    have := h.index_lt hi
    simp [CharMap.set, List.getElem?_append_left (show i < m.vals.length by rw [h.len]; exact this)]

theorem MapInv.set {s : CharSource} {m : CharMap} (h : MapInv s m) {k v : Nat} (hk : m.keyExists k = false)
    (hv : GlyphFor s k v) : MapInv s (m.set k v) := by
  have hnot : k ∉ m.keys := by
    intro hc; rw [(h.keyExists_iff k).2 hc] at hk; cases hk
  refine ⟨?_, by simp [CharMap.set, h.len], ?_, ?_⟩
  · simp [CharMap.set, List.nodup_append, h.nodup]
    intro a ha e; subst e; exact hnot ha
  · intro k' i
    rw [index_set]
    by_cases e : k = k'
    · subst e
      rw [if_pos rfl]
      constructor
      · intro hh; cases hh; simp [CharMap.set]
      · intro hh
        simp only [CharMap.set] at hh
        by_cases hi : i < m.keys.length
        · rw [List.getElem?_append_left hi] at hh
          exact (hnot (List.mem_of_getElem? hh)).elim
        · have := (List.getElem?_eq_some_iff.1 hh).1
          simp at this
          congr 1; omega
    · rw [if_neg e, h.idx]
      simp only [CharMap.set]
      by_cases hi : i < m.keys.length
      · rw [List.getElem?_append_left hi]
      · constructor
        · intro hh; exact (hi (List.getElem?_eq_some_iff.1 hh).1).elim
        · intro hh
          rw [List.getElem?_append_right (by omega)] at hh
          have := (List.getElem?_eq_some_iff.1 hh).1
          simp at this
          rw [show i - m.keys.length = 0 by omega] at hh
          simp at hh
          exact (e hh).elim
  · intro k' g hg
    by_cases e : k = k'
    · subst e
      rw [val_set_self h] at hg
      cases hg; exact hv
    · rw [val_set_ne h v e] at hg
      exact h.glyph k' g hg

/-- What one turn of the loop does. -/
theorem addChar_ok {s : CharSource} {m m' : CharMap} {r r' : Nat} (h : MapInv s m) (e : addChar s m r = .ok (m', r')) :
    MapInv s m' ∧ (∀ k g, m.val k = some g → m'.val k = some g) ∧ m'.keyExists r' = true ∧
    m.keys <+: m'.keys ∧
    (r' = r ∨ (glyphOf s.cmap r = .error .notFound ∧ ∃ f, s.subst = some f ∧ r' = f r)) := by
  have keep : ∀ (k v : Nat), m.keyExists k = false → ∀ k' g, m.val k' = some g → (m.set k v).val k' = some g := by
    intro k v hk k' g hg
    by_cases e : k = k'
    · subst e
      unfold CharMap.val CharMap.keyExists at *
      cases hi : m.index k <;> simp [hi] at hk hg
    · rw [val_set_ne h v e, hg]
  have ex : ∀ k v, (m.set k v).keyExists k = true := by
    intro k v; unfold CharMap.keyExists; rw [index_set, if_pos rfl]; rfl
  have pre : ∀ k v, m.keys <+: (m.set k v).keys := fun k v => List.prefix_append _ _
  unfold addChar at e
  split at e
  · next hk => cases e; exact ⟨h, fun _ _ hh => hh, hk, List.prefix_refl _, .inl rfl⟩
  · next hk =>
    have hk : m.keyExists r = false := by simpa using hk
    split at e
    · next g hg =>
      cases e
      exact ⟨h.set hk (.inl hg), keep r g hk, ex r g, pre r g, .inl rfl⟩
    · next hnf =>
      unfold replaceMissing at e
      cases hsub : s.subst with
      | none =>
        simp only [hsub] at e
        cases e
        exact ⟨h.set hk (.inr (.inl ⟨rfl, hnf⟩)), keep _ _ hk, ex _ _, pre _ _, .inl rfl⟩
      | some f =>
        simp only [hsub] at e
        by_cases hf : m.keyExists (f r) = true
        · rw [if_pos hf] at e
          cases e
          exact ⟨h, fun _ _ hh => hh, hf, List.prefix_refl _, .inr ⟨hnf, f, rfl, rfl⟩⟩
        · have hf' : m.keyExists (f r) = false := by simpa using hf
          rw [if_neg hf] at e
          cases hg : glyphOf s.cmap (f r) with
          | ok g =>
            simp only [hg] at e
            cases e
            exact ⟨h.set hf' (.inl hg), keep _ _ hf', ex _ _, pre _ _, .inr ⟨hnf, f, rfl, rfl⟩⟩
          | error er =>
            simp only [hg] at e
            cases er with
            | panic => cases e
            | notFound =>
              cases e
              exact ⟨h.set hf' (.inr (.inl ⟨rfl, hg⟩)), keep _ _ hf', ex _ _, pre _ _, .inr ⟨hnf, f, rfl, rfl⟩⟩
            | err =>
              cases e
              exact ⟨h.set hf' (.inr (.inr ⟨rfl, hg⟩)), keep _ _ hf', ex _ _, pre _ _, .inr ⟨hnf, f, rfl, rfl⟩⟩
    · cases e

theorem addChars_inv {s : CharSource} : ∀ {text : List Nat} {m : CharMap}, MapInv s m →
    MapInv s (addChars s m text).1 ∧ (∀ k g, m.val k = some g → (addChars s m text).1.val k = some g) ∧
    m.keys <+: (addChars s m text).1.keys := by
  intro text
  induction text with
  | nil => intro m h; exact ⟨h, fun _ _ hh => hh, List.prefix_refl _⟩
  | cons r rest ih =>
    intro m h
    simp only [addChars]
    cases e : addChar s m r with
    | error er => exact ⟨h, fun _ _ hh => hh, List.prefix_refl _⟩
    | ok p =>
      obtain ⟨m', r'⟩ := p
      obtain ⟨i1, i2, i3, i4, i5⟩ := addChar_ok h e
      obtain ⟨j1, j2, j3⟩ := ih i1
      cases e2 : addChars s m' rest with
      | mk m'' o =>
        rw [e2] at j1 j2 j3
        simp only [e2]
        cases o <;> exact ⟨j1, fun k g hh => j2 k g (i2 k g hh), i4.trans j3⟩

theorem CharHistory.inv {s : CharSource} {m : CharMap} (h : CharHistory s m) : MapInv s m := by
  induction h with
  | start => exact MapInv.empty s
  | add text _ ih => exact (addChars_inv ih).1

/-- **C24** However many texts were added and whichever calls failed, adding more text never changes the glyph of a
character already in the font's map. -/
theorem char_glyph_stable {s : CharSource} {m : CharMap} (h : CharHistory s m) (text : List Nat) {k g : Nat}
    (hk : m.val k = some g) : (addChars s m text).1.val k = some g :=
  (addChars_inv h.inv).2.1 k g hk

/-- **C24** The list of characters has no duplicates, the glyph list runs parallel to it, both only grow at the end,
and looking a character up gives the glyph at its position. -/
theorem char_map_consistent {s : CharSource} {m : CharMap} (h : CharHistory s m) :
    m.keys.Nodup ∧ m.vals.length = m.keys.length ∧
    (∀ k g, m.val k = some g ↔ ∃ i : Nat, m.keys[i]? = some k ∧ m.vals[i]? = some g) ∧
    ∀ text, m.keys <+: (addChars s m text).1.keys := by
  refine ⟨h.inv.nodup, h.inv.len, ?_, fun text => (addChars_inv h.inv).2.2⟩
  intro k g
  unfold CharMap.val
  constructor
  · intro hh
    cases hi : m.index k with
    | none => rw [hi] at hh; cases hh
    | some i => rw [hi] at hh; exact ⟨i, (h.inv.idx k i).1 hi, hh⟩
  · rintro ⟨i, h1, h2⟩
    rw [(h.inv.idx k i).2 h1]; exact h2

/-- **C24** A character's glyph is the one the font assigns, or 0 if the font has none. -/
theorem char_glyph_is_fonts {s : CharSource} {m : CharMap} (h : CharHistory s m) {k g : Nat} (hk : m.val k = some g) :
    GlyphFor s k g := h.inv.glyph k g hk

theorem addChars_out {s : CharSource} : ∀ {text out : List Nat} {m : CharMap}, MapInv s m →
    (addChars s m text).2 = .ok out →
    out.length = text.length ∧
    ∀ (i : Nat) r, text[i]? = some r → ∃ r', out[i]? = some (goRune r') ∧
      (∃ g, (addChars s m text).1.val r' = some g) ∧
      (r' = r ∨ (glyphOf s.cmap r = .error .notFound ∧ ∃ f, s.subst = some f ∧ r' = f r)) := by
  intro text
  induction text with
  | nil => intro out m h e; simp [addChars] at e; subst e; simp
  | cons r rest ih =>
    intro out m h e
    simp only [addChars] at e ⊢
    cases ea : addChar s m r with
    | error er => rw [ea] at e; simp at e
    | ok p =>
      obtain ⟨m', r'⟩ := p
      rw [ea] at e
      simp only at e ⊢
      obtain ⟨i1, i2, i3, i4, i5⟩ := addChar_ok h ea
      have k1 := addChars_inv i1 (text := rest)
      have k2 := @ih
      cases e2 : addChars s m' rest with
      | mk m'' o =>
        rw [e2] at e k1
        cases o with
        | error er => simp at e
        | ok out' =>
          simp at e
          subst e
          obtain ⟨l1, l2⟩ := ih i1 (by rw [e2])
          refine ⟨by simp [l1], ?_⟩
          intro i x hx
          cases i with
          | zero =>
            simp at hx; subst hx
            obtain ⟨g, hg⟩ := i1.val_isSome i3
            exact ⟨r', rfl, ⟨g, k1.2.1 _ _ hg⟩, i5⟩
          | succ i =>
            obtain ⟨r'', a, b, c⟩ := l2 i x (by simpa using hx)
            rw [e2] at b
            exact ⟨r'', by simpa using a, b, c⟩

/-- A Unicode scalar value. -/
def IsScalar (r : Nat) : Prop := r < 0xD800 ∨ (0xDFFF < r ∧ r ≤ 0x10FFFF)

/-- **C24** Adding a text succeeds with a text of the same length, every character of which is in the map with a
glyph; a character is kept unless the font has no glyph for it, and is then the one the substitute callback names.
Texts come from Go strings, so they consist of scalar values; the callback is assumed to return scalar values too
(see `drawn_char_missing_fails`). -/
theorem drawn_chars_in_map {s : CharSource} {m : CharMap} (h : CharHistory s m) {text out : List Nat}
    (hok : (addChars s m text).2 = .ok out) (htext : ∀ r ∈ text, IsScalar r)
    (hsub : ∀ f, s.subst = some f → ∀ r, IsScalar (f r)) :
    out.length = text.length ∧
    ∀ (i : Nat) r, text[i]? = some r → ∃ r' g, out[i]? = some r' ∧ (addChars s m text).1.val r' = some g ∧
      (r' = r ∨ (glyphOf s.cmap r = .error .notFound ∧ ∃ f, s.subst = some f ∧ r' = f r)) := by
  obtain ⟨h1, h2⟩ := addChars_out h.inv hok
  refine ⟨h1, fun i r hr => ?_⟩
  obtain ⟨r', a, ⟨g, hg⟩, c⟩ := h2 i r hr
  have hs : IsScalar r' := by
    rcases c with rfl | ⟨_, f, hf, rfl⟩
    · exact htext _ (List.mem_of_getElem? hr)
    · exact hsub f hf r
  refine ⟨r', g, ?_, hg, c⟩
  rw [a]
  unfold IsScalar at hs
  unfold goRune; rw [if_pos hs]

/-- **C24** (needed hypothesis)  If the substitute callback returns a rune that is no Unicode scalar value, such as a
surrogate, the text drawn contains U+FFFD, which is not in the map: it is silently not drawn. -/
theorem drawn_char_missing_fails : ∃ (s : CharSource) (out : List Nat),
    (addChars s CharMap.empty [64]).2 = .ok out ∧ ∃ r ∈ out, (addChars s CharMap.empty [64]).1.val r = none :=
  ⟨⟨⟨⟨2, [67, 65535], [65, 65535], [1, 1], [4, 0], [5, 0, 7]⟩, [], []⟩, some fun _ => 0xD800⟩, [0xFFFD],
    by decide +kernel, 0xFFFD, by decide +kernel, by decide +kernel⟩

/-- A history: "AB" then "CA@" with `@` replaced by a space the font lacks. -/
def demoSource : CharSource :=
  ⟨⟨⟨2, [67, 65535], [65, 65535], [1, 1], [4, 0], [5, 0, 7]⟩, [], []⟩, some fun _ => 32⟩

example : ∃ m, CharHistory demoSource m ∧ m.keys = [65, 66, 67, 32] ∧ m.vals = [6, 0, 8, 0] :=
  ⟨_, .add [67, 65, 64] (.add [65, 66] .start), by decide +kernel, by decide +kernel⟩

example : (addChars demoSource CharMap.empty [65, 64, 66]).2 = .ok [65, 32, 66] := by decide +kernel

end Verif.Props
