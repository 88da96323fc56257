import Verif.Lemmas.Content.Join
import Verif.Model.Measure
import Mathlib.Tactic.Linarith
import Mathlib.Tactic.FieldSimp
/- How far the pen moves. -/
namespace Verif.Content
open Paint Drawing
open TextRun (RunFont withIndex tjLoop sumWidth glyphWidth toPdfUnit kernBefore)

/-- What one element moves the pen by. -/
def move (wd : Widths) (font : Nat) (size cs : ℚ) : TextShow.Item → ℚ
  | .code c => wd font c / 1000 * size + cs
  | .adjust n => -(n / 1000 * size)

theorem show_pen (wd : Widths) (g : GState) (font : Nat) (size : ℚ) : ∀ (l : List TextShow.Item) (pen : ℚ × ℚ),
    (show' wd g font size pen l).1 = (pen.1 + (l.map (move wd font size g.charSpace)).sum, pen.2) := by
  intro l
  induction l with
  | nil => intro pen; simp [show']
  | cons i l ih =>
    intro pen
    cases i with
    | code c => simp only [show', ih, List.map_cons, List.sum_cons, move]; ext <;> simp <;> ring
    | adjust n => simp only [show', ih, List.map_cons, List.sum_cons, move]; ext <;> simp <;> ring

/-- Number of glyphs in a run. -/
def glyphCount (f : RunFont) (l : List (Nat × Nat)) : Nat := l.countP fun p => (f.map.val p.2).isSome

/-- Is a justified gap. -/
def isGap (first last : Int) (p : Nat × Nat) : Bool := p.2 = 32 ∧ (p.1 : Int) > first ∧ (p.1 : Int) < last

def gapCount (f : RunFont) (j : TextRun.Just) (l : List (Nat × Nat)) : Nat := match j with
  | none => 0
  | some (_, first, last) => l.countP fun p => (f.map.val p.2).isSome && isGap first last p

def adjOf : TextRun.Just → Int
  | none => 0
  | some (a, _, _) => a

/-- The sum measured is the sum drawn, up to character spacing and justification. -/
theorem sum_loop (wd : Widths) (f : RunFont) (font : Nat) (size cs : ℚ) (space : Int) (j : TextRun.Just)
    (hw : ∀ (g w : Nat), glyphWidth f g = .ok w → wd font g = w) : ∀ (l : List (Nat × Nat)) (left : Nat × Nat) (s : Int),
    sumWidth f space left l = .ok s →
    ((tjLoop f j left l).map fun x => move wd font size cs (tjItem x)).sum =
      (s : ℚ) * (size / 1000) + glyphCount f l * (cs - (space : ℚ) * (size / 1000))
        - gapCount f j l * ((adjOf j : ℚ) / 1000 * size) := by
  intro l
  induction l with
  | nil =>
    intro left s h
    simp [sumWidth] at h
    subst h
    cases j <;> simp [tjLoop, glyphCount, gapCount]
  | cons p l ih =>
    intro left s h
    obtain ⟨i, r⟩ := p
    simp only [sumWidth, tjLoop] at h ⊢
    cases hv : f.map.val r with
    | none =>
      rw [hv] at h
      have h1 : glyphCount f ((i, r) :: l) = glyphCount f l := by simp [glyphCount, hv]
      have h2 : gapCount f j ((i, r) :: l) = gapCount f j l := by
        cases j with
        | none => rfl
        | some t => simp [gapCount, hv]
      rw [h1, h2]
      exact ih left s h
    | some g =>
      rw [hv] at h
      simp only at h ⊢
      cases hg : glyphWidth f g with
      | error e => rw [hg] at h; simp at h
      | ok w =>
        rw [hg] at h
        simp only at h
        cases hs : sumWidth f space (r, g) l with
        | error e => rw [hs] at h; simp at h
        | ok s' =>
          rw [hs] at h
          simp only [Except.ok.injEq] at h
          subst h
          have hi := ih (r, g) s' hs
          have h1 : glyphCount f ((i, r) :: l) = glyphCount f l + 1 := by simp [glyphCount, hv]
          rw [h1]
          have hm : move wd font size cs (tjItem (.glyph g)) = (w : ℚ) / 1000 * size + cs := by
            simp [tjItem, move, hw g w hg]
          simp only [List.map_append, List.sum_append, hi, List.map_cons, List.map_nil, List.sum_cons, List.sum_nil, hm]
          have hk : ((if kernBefore f i r g left ≠ 0 then [TextRun.TJ.adj (-kernBefore f i r g left)] else []).map fun x =>
              move wd font size cs (tjItem x)).sum = (kernBefore f i r g left : ℚ) / 1000 * size := by
            split
            · simp [tjItem, move]; ring
            · next hz => simp at hz; simp [hz]
          rw [hk]
          cases j with
          | none => simp [gapCount, adjOf]; ring
          | some t =>
            obtain ⟨a, first, last⟩ := t
            by_cases hgap : r = 32 ∧ (i : Int) > first ∧ (i : Int) < last
            · have h2 : gapCount f (some (a, first, last)) ((i, r) :: l) = gapCount f (some (a, first, last)) l + 1 := by
                simp only [gapCount]
                rw [List.countP_cons_of_pos]
                simpa [hv, isGap] using hgap
              rw [h2]
              simp only [hgap, adjOf, and_self, if_true]
              simp [tjItem, move]; ring
            · have h2 : gapCount f (some (a, first, last)) ((i, r) :: l) = gapCount f (some (a, first, last)) l := by
                simp only [gapCount]
                rw [List.countP_cons_of_neg]
                simpa [hv, isGap] using hgap
              rw [h2]
              simp only [hgap, if_false, adjOf]
              simp; ring

/-- How far the reader's pen moves over a text item. -/
theorem item_advance (wd : Widths) (e : Env) (t : TextItem) (g : GState) (pen : ℚ × ℚ) (s : Int)
    (hw : ∀ (g w : Nat), glyphWidth (e.fonts t.font).run g = .ok w → wd t.font g = w)
    (hs : sumWidth (e.fonts t.font).run (spaceWidth (e.fonts t.font) t.fontSize t.charSpacing) (0, 0) (withIndex 0 t.text) = .ok s) :
    (show' wd g t.font t.fontSize pen (tjOf e t)).1 =
      (pen.1 + ((s : ℚ) * (t.fontSize / 1000) + glyphCount (e.fonts t.font).run (withIndex 0 t.text) *
          (g.charSpace - (spaceWidth (e.fonts t.font) t.fontSize t.charSpacing : ℚ) * (t.fontSize / 1000))
        - gapCount (e.fonts t.font).run (justOf t) (withIndex 0 t.text) * ((adjOf (justOf t) : ℚ) / 1000 * t.fontSize)), pen.2) := by
  rw [show_pen, tjOf, List.map_map]
  have := sum_loop wd (e.fonts t.font).run t.font t.fontSize g.charSpace _ (justOf t) hw _ _ _ hs
  rw [← this]; rfl

theorem glyphCount_text (e : Env) (t : TextItem) :
    glyphCount (e.fonts t.font).run (withIndex 0 t.text) = (itemCodes e t).length := by
  have : ∀ (l : List Nat) (i : Nat), glyphCount (e.fonts t.font).run (withIndex i l) =
      (l.filterMap (e.fonts t.font).run.map.val).length := by
    intro l
    induction l with
    | nil => intro i; rfl
    | cons r l ih =>
      intro i
      have := ih (i + TextRun.utf8Len r)
      unfold glyphCount at this ⊢
      simp only [withIndex, List.countP_cons, List.filterMap_cons, this]
      cases (e.fonts t.font).run.map.val r <;> simp
  exact this t.text 0

/-- Sum over a concatenation: kerning before the first character of the second part is all that is added. -/
theorem sumWidth_ok_append (f : RunFont) (space : Int) : ∀ (a b : List (Nat × Nat)) (left : Nat × Nat) (s : Int),
    sumWidth f space left (a ++ b) = .ok s →
    ∃ s1 s2, sumWidth f space left a = .ok s1 ∧
      sumWidth f space ((a.filterMap fun p => (f.map.val p.2).map fun g => (p.2, g)).getLastD left) b = .ok s2 ∧ s = s1 + s2 := by
  intro a
  induction a with
  | nil => intro b left s h; exact ⟨0, s, rfl, h, by simp⟩
  | cons p a ih =>
    intro b left s h
    obtain ⟨i, r⟩ := p
    simp only [List.cons_append, sumWidth] at h ⊢
    cases hv : f.map.val r with
    | none =>
      rw [hv] at h
      obtain ⟨s1, s2, h1, h2, h3⟩ := ih b left s h
      exact ⟨s1, s2, h1, by simpa [hv] using h2, h3⟩
    | some g =>
      rw [hv] at h
      simp only at h ⊢
      cases hg : glyphWidth f g with
      | error e => rw [hg] at h; simp at h
      | ok w =>
        rw [hg] at h
        simp only at h ⊢
        cases hs : sumWidth f space (r, g) (a ++ b) with
        | error e => rw [hs] at h; simp at h
        | ok s' =>
          rw [hs] at h
          simp only [Except.ok.injEq] at h
          obtain ⟨s1, s2, h1, h2, h3⟩ := ih b (r, g) s' hs
          refine ⟨_, s2, by rw [h1], ?_, ?_⟩
          · rw [List.filterMap_cons]
            simp only [hv, Option.map_some]
            rw [List.getLastD_cons]; exact h2
          · rw [← h, h3]; ring

theorem withIndex_append : ∀ (a b : List Nat) (i : Nat), ∃ k, withIndex i (a ++ b) = withIndex i a ++ withIndex k b ∧
    (a ≠ [] → i < k) ∧ (a = [] → k = i) := by
  intro a
  induction a with
  | nil => intro b i; exact ⟨i, rfl, by simp, by simp⟩
  | cons r a ih =>
    intro b i
    obtain ⟨k, h1, h2, h3⟩ := ih b (i + TextRun.utf8Len r)
    refine ⟨k, by simp [withIndex, h1], fun _ => ?_, by simp⟩
    have : 0 < TextRun.utf8Len r := by unfold TextRun.utf8Len; split <;> (try split) <;> (try split) <;> omega
    by_cases ha : a = []
    · have := h3 ha; omega
    · have := h2 ha; omega

/-- Rounding of the character spacing: never more than the exact spacing, and less than one thousandth of the size plus one
font unit below it. -/
theorem spacing_bound (f : Font) (size cs : ℚ) (hsz : 0 < size) (hu : 0 < f.run.unitsPerEm) (hcs : 0 ≤ cs) :
    (spaceWidth f size cs : ℚ) * (size / 1000) ≤ cs ∧
      cs - (spaceWidth f size cs : ℚ) * (size / 1000) < size / 1000 + size / f.run.unitsPerEm := by
  have hU : (0 : ℚ) < (f.run.unitsPerEm : ℚ) := by exact_mod_cast hu
  set U : ℚ := (f.run.unitsPerEm : ℚ) with hUdef
  have ha : 0 ≤ U / size * cs := by positivity
  have ht : truncQ (U / size * cs) = ⌊U / size * cs⌋ := by simp [truncQ, not_lt.2 ha]
  set n := ⌊U / size * cs⌋ with hn
  have hn0 : 0 ≤ n := Int.floor_nonneg.2 ha
  have hn1 : (n : ℚ) ≤ U / size * cs := Int.floor_le _
  have hn2 : U / size * cs < n + 1 := Int.lt_floor_add_one _
  -- converting to thousandths is floor division
  have hp : toPdfUnit n f.run.unitsPerEm = n * 1000 / (f.run.unitsPerEm : Int) := by
    unfold toPdfUnit
    rw [if_neg (by omega)]
    have hUi : (0 : Int) < (f.run.unitsPerEm : Int) := by exact_mod_cast hu
    rw [Int.tdiv_eq_ediv_of_nonneg hn0, Int.tmod_eq_emod_of_nonneg hn0,
      Int.tdiv_eq_ediv_of_nonneg (by have := Int.emod_nonneg n hUi.ne'; omega)]
    have h1 : n * 1000 = n % (f.run.unitsPerEm : Int) * 1000 + (f.run.unitsPerEm : Int) * (n / (f.run.unitsPerEm : Int) * 1000) := by
      have := Int.emod_add_mul_ediv n (f.run.unitsPerEm : Int)
      calc n * 1000 = (n % (f.run.unitsPerEm : Int) + (f.run.unitsPerEm : Int) * (n / (f.run.unitsPerEm : Int))) * 1000 := by rw [this]
        _ = _ := by ring
    rw [h1, Int.add_mul_ediv_left _ _ hUi.ne']
    ring
  have hsp : spaceWidth f size cs = n * 1000 / (f.run.unitsPerEm : Int) := by
    unfold spaceWidth; rw [← hUdef, ht, hp]
  rw [hsp]
  set p := n * 1000 / (f.run.unitsPerEm : Int) with hpd
  have hUi : (0 : Int) < (f.run.unitsPerEm : Int) := by exact_mod_cast hu
  have hp1 : p * (f.run.unitsPerEm : Int) ≤ n * 1000 := Int.ediv_mul_le _ hUi.ne'
  have hp2 : n * 1000 < (p + 1) * (f.run.unitsPerEm : Int) := Int.lt_ediv_add_one_mul_self _ hUi
  have hp1' : (p : ℚ) * U ≤ n * 1000 := by rw [hUdef]; exact_mod_cast hp1
  have hp2' : (n : ℚ) * 1000 < (p + 1) * U := by rw [hUdef]; exact_mod_cast hp2
  have e1 : U / size * cs * size = U * cs := by field_simp
  have hn1' : (n : ℚ) * size ≤ U * cs := by
    have := mul_le_mul_of_nonneg_right hn1 hsz.le
    rwa [e1] at this
  have hn2' : U * cs < (n + 1) * size := by
    have := mul_lt_mul_of_pos_right hn2 hsz
    rwa [e1] at this
  constructor
  · have : (p : ℚ) * U * size ≤ 1000 * (U * cs) := by
      calc (p : ℚ) * U * size ≤ n * 1000 * size := mul_le_mul_of_nonneg_right hp1' hsz.le
        _ = 1000 * (n * size) := by ring
        _ ≤ 1000 * (U * cs) := by linarith
    have h3 : U * ((p : ℚ) * (size / 1000)) ≤ U * cs := by
      have : U * ((p : ℚ) * (size / 1000)) = (p * U * size) / 1000 := by ring
      rw [this]; linarith
    exact le_of_mul_le_mul_left h3 hU
  · have h4 : (n : ℚ) * 1000 * size < (p + 1) * U * size := mul_lt_mul_of_pos_right hp2' hsz
    have h5 : U * cs < U * ((p : ℚ) * (size / 1000) + (size / 1000 + size / U)) := by
      have : U * ((p : ℚ) * (size / 1000) + (size / 1000 + size / U)) = ((p + 1) * U * size) / 1000 + size := by
        field_simp
        ring
      rw [this]
      linarith
    have := lt_of_mul_lt_mul_left h5 hU.le
    linarith

end Verif.Content
