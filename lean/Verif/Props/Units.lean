import Verif.Model.Units
import Mathlib.Tactic.Linarith
import Mathlib.Tactic.FieldSimp
import Mathlib.Tactic.Ring
/- C21, C22: unit conversion and the automatic page break. -/
namespace Verif.Props
open Units

private theorem factor_pos (u : Int) : 0 < factor u := by
  unfold factor; split <;> [skip; split <;> [skip; split <;> [skip; split <;> [skip; split]]]] <;> norm_num

/-- **C21** Converting to points and back gives the length, for every unit and every custom factor. -/
theorem units_round_trip (c : Cfg) (u : ℚ) : fromPoints c (toPoints c u) = u ∧ toPoints c (fromPoints c u) = u := by
  have := (factor_pos c.unit).ne'
  unfold fromPoints toPoints
  split <;> constructor <;> field_simp

/-- **C21** Conversion is additive and scales. -/
theorem units_linear (c : Cfg) (u v k : ℚ) : toPoints c (u + v) = toPoints c u + toPoints c v ∧
    toPoints c (k * u) = k * toPoints c u := by
  unfold toPoints
  split <;> constructor <;> ring

/-- **C21** Conversion keeps the order (for a custom factor that is not negative; 0 means no custom factor). -/
theorem units_monotone (c : Cfg) (hc : 0 ≤ c.conv) (u v : ℚ) : toPoints c u < toPoints c v ↔ u < v := by
  unfold toPoints
  split
  · next h => exact mul_lt_mul_iff_left₀ (lt_of_le_of_ne hc (Ne.symm h))
  · exact mul_lt_mul_iff_left₀ (factor_pos _)

/-- **C21** A custom factor takes precedence over the unit: the result does not depend on the unit. -/
theorem custom_factor_wins (unit unit' : Int) (k u : ℚ) (hk : k ≠ 0) :
    toPoints ⟨unit, k⟩ u = u * k ∧ toPoints ⟨unit, k⟩ u = toPoints ⟨unit', k⟩ u := by
  simp [toPoints, hk]

/-- **C21** The documented meanings: a point, 1 inch = 72 points = 25.4 mm = 2.54 cm = 96 pixels; other values of the unit
change nothing. -/
theorem unit_values (u : ℚ) : toPoints ⟨1, 0⟩ u = u ∧ toPoints ⟨4, 0⟩ 1 = 72 ∧ toPoints ⟨2, 0⟩ (254 / 10) = 72 ∧
    toPoints ⟨3, 0⟩ (254 / 100) = 72 ∧ toPoints ⟨5, 0⟩ 96 = 72 ∧
    ∀ n : Int, n ≤ 0 ∨ 5 < n → toPoints ⟨n, 0⟩ u = u ∧ fromPoints ⟨n, 0⟩ u = u := by
  refine ⟨by simp [toPoints, factor], by norm_num [toPoints, factor], by norm_num [toPoints, factor],
    by norm_num [toPoints, factor], by norm_num [toPoints, factor], ?_⟩
  intro n hn
  have : factor n = 1 := by
    unfold factor
    rw [if_neg (by omega), if_neg (by omega), if_neg (by omega), if_neg (by omega), if_neg (by omega)]
  simp [toPoints, fromPoints, this]

/-- **C21** Rectangles convert back and forth, in their own unit if they have one; the page formats (own unit: points) are
not scaled by the document's unit. -/
theorem rect_round_trip (w h : ℚ) (t : Int) : (({ w := w, h := h } : Rect).toPointsT t).toUnitsT t = { w := w, h := h } ∧
    ({ w := w, h := h, override := ⟨1, 0⟩ } : Rect).toPointsT t = { w := w, h := h } ∧
    ∀ c, ({ w := w, h := h, override := ⟨1, 0⟩ } : Rect).toPointsC c = { w := w, h := h } := by
  refine ⟨?_, ?_, fun c => ?_⟩
  · simp only [Rect.toPointsT, Rect.toUnitsT]
    simp [(units_round_trip ⟨t, 0⟩ w).1, (units_round_trip ⟨t, 0⟩ h).1]
  · simp [Rect.toPointsT, toPoints, factor]
  · simp [Rect.toPointsC, toPoints, factor]

/-- **C21** The custom factor is ignored for the page size of a PageOption (and every other Rect passed to
UnitsToPoints(unit)): with the factor 72/300 a page of 300 x 300 is 300 points high, while the same size given to Start
is 72 points high. -/
theorem page_option_factor_fails : ∃ (c : Cfg) (r : Rect), (start c r).defaultSize = { w := 72, h := 72 } ∧
    ((start c r).addPage (some r)).pageSize = some { w := 300, h := 300 } := by
  refine ⟨⟨0, 72 / 300⟩, { w := 300, h := 300 }, ?_, ?_⟩
  · simp only [start, Rect.toPointsC, toPoints]; norm_num
  · simp only [start, St.addPage, Rect.toPointsT, toPoints, factor]; norm_num

/-- **C21** Margins are read back as they were set, in the unit of the document; setting one leaves the others, the cursor and the page alone. -/
theorem margins_round_trip (s : St) (l t r b : ℚ) :
    (s.setMargins l t r b).margins = (l, t, r, b) ∧ s.margins = (s.marginLeft, s.marginTop, s.marginRight, s.marginBottom) ∧
    (s.setMarginLeft l).margins = (l, s.marginTop, s.marginRight, s.marginBottom) ∧
    (s.setMarginTop t).margins = (s.marginLeft, t, s.marginRight, s.marginBottom) ∧
    (s.setMarginRight r).margins = (s.marginLeft, s.marginTop, r, s.marginBottom) ∧
    (s.setMarginBottom b).margins = (s.marginLeft, s.marginTop, s.marginRight, b) ∧
    ∀ s' ∈ [s.setMargins l t r b, s.setMarginLeft l, s.setMarginTop t, s.setMarginRight r, s.setMarginBottom b],
      s'.getX = s.getX ∧ s'.getY = s.getY ∧ s'.pageSize = s.pageSize ∧ s'.pages = s.pages := by
  have h := fun u => (units_round_trip s.cfg u).1
  refine ⟨?_, rfl, ?_, ?_, ?_, ?_, ?_⟩
  · simp [St.margins, St.setMargins, h]
  · simp [St.margins, St.setMarginLeft, St.marginTop, St.marginRight, St.marginBottom, h]
  · simp [St.margins, St.setMarginTop, St.marginLeft, St.marginRight, St.marginBottom, h]
  · simp [St.margins, St.setMarginRight, St.marginLeft, St.marginTop, St.marginBottom, h]
  · simp [St.margins, St.setMarginBottom, St.marginLeft, St.marginTop, St.marginRight, h]
  · intro s' hs
    simp only [List.mem_cons, List.not_mem_nil, or_false] at hs
    rcases hs with rfl | rfl | rfl | rfl | rfl <;> exact ⟨rfl, rfl, rfl, rfl⟩

/-- **C21** A new page starts at the margins. -/
theorem page_starts_at_margins (s : St) (size : Option Rect) : (s.addPage size).getX = s.marginLeft ∧ (s.addPage size).getY = s.marginTop ∧
    (s.addPage size).margins = s.margins := ⟨rfl, rfl, rfl⟩

/-- **C21** Without SetMargins the four margins are 10 points whatever the unit, so in a document in points the first page starts at
(10, 10); a page added without a size has the document's. -/
theorem default_margins (c : Cfg) (size : Rect) :
    toPoints c (start c size).marginLeft = 10 ∧ toPoints c (start c size).marginTop = 10 ∧
    toPoints c (start c size).marginRight = 10 ∧ toPoints c (start c size).marginBottom = 10 ∧
    ((start c size).margins = ((start c size).marginLeft, (start c size).marginTop, (start c size).marginRight, (start c size).marginBottom)) ∧
    ((start c size).addPage none).pageSize = some (size.toPointsC c) ∧
    (start ⟨1, 0⟩ size).margins = (10, 10, 10, 10) ∧
    ((start ⟨1, 0⟩ size).addPage none).getX = 10 ∧ ((start ⟨1, 0⟩ size).addPage none).getY = 10 := by
  have h := fun u => (units_round_trip c u).2
  refine ⟨h 10, h 10, h 10, h 10, rfl, rfl, ?_, ?_, ?_⟩ <;>
    simp [St.margins, St.getX, St.getY, St.addPage, start, fromPoints, factor]

/-- **C21** The cursor is read back in the unit it was set in, and Br moves it down by the height and back to the left
margin. -/
theorem cursor_round_trip (s : St) (x y : ℚ) : (s.setX x).getX = x ∧ (s.setY y).getY = y ∧
    (s.setXY x y).getX = x ∧ (s.setXY x y).getY = y ∧ (s.setX x).getY = s.getY ∧ (s.setY y).getX = s.getX ∧
    (s.br y).getY = s.getY + y ∧ (s.br y).getX = s.marginLeft := by
  have h := fun u => (units_round_trip s.cfg u).1
  refine ⟨h x, h y, h x, h y, rfl, rfl, ?_, rfl⟩
  show fromPoints s.cfg (s.y + toPoints s.cfg y) = fromPoints s.cfg s.y + y
  conv_rhs => rw [← h y]
  unfold fromPoints
  split <;> rw [add_div]

example : toPoints ⟨2, 0⟩ 210 = 595 + 70 / 254 ∧ toPoints ⟨2, 3⟩ 210 = 630 := by
  constructor <;> norm_num [toPoints, factor]

/-- Measuring in points: no custom factor and unit points (or unset). -/
def InPoints (c : Cfg) : Prop := c.conv = 0 ∧ factor c.unit = 1

private theorem inPoints {c : Cfg} (h : InPoints c) (u : ℚ) : toPoints c u = u ∧ fromPoints c u = u := by
  obtain ⟨h1, h2⟩ := h
  simp [toPoints, fromPoints, h1, h2]

/-- **C22** When measuring in points, SetNewYIfNoOffset starts a new page exactly if an element of height h at y would
reach below the bottom margin; the cursor is then at the top margin of the new page, and otherwise at y on the same page. -/
theorem new_y_no_offset_points (s : St) (hp : InPoints s.cfg) (p : Rect) (hs : s.pageSize = some p) (y h : ℚ) :
    ∃ s', s.setNewYIfNoOffset y h = some s' ∧
      (y + h ≤ p.h - s.bottom → s' = { s with y := y }) ∧
      (p.h - s.bottom < y + h → s'.pages = s.pages + 1 ∧ s'.y = s.top ∧ s'.x = s.left ∧ s'.pageSize = some s.defaultSize) := by
  have hu := fun u => (inPoints hp u)
  simp only [St.setNewYIfNoOffset, St.break, hs, (hu _).1, St.marginBottom, (hu _).2]
  split
  · next hgt => exact ⟨_, rfl, fun hle => absurd hgt (not_lt.2 hle), fun _ => ⟨rfl, (hu s.top).2, rfl, rfl⟩⟩
  · next hng => exact ⟨_, rfl, fun _ => rfl, fun hlt => absurd hlt hng⟩

/-- **C22** When measuring in points, SetNewY starts a new page exactly if the height does not fit between the current
position and the bottom margin; otherwise it only moves the cursor to y. SetNewXY does the same and then sets x. -/
theorem new_y_points (s : St) (hp : InPoints s.cfg) (p : Rect) (hs : s.pageSize = some p) (y h : ℚ) :
    ∃ s', s.setNewY y h = some s' ∧ (∀ x, s.setNewXY y x h = some { s' with x := x }) ∧
      (s.y + h ≤ p.h - s.bottom → s' = { s with y := y }) ∧
      (p.h - s.bottom < s.y + h → s'.pages = s.pages + 1 ∧ s'.y = s.top ∧ s'.x = s.left ∧ s'.pageSize = some s.defaultSize) := by
  have hu := fun u => (inPoints hp u)
  simp only [St.setNewXY, St.setNewY, St.break, hs, (hu _).1, St.marginBottom, (hu _).2]
  split
  · next hgt =>
    refine ⟨_, rfl, fun x => ?_, fun hle => absurd hgt (not_lt.2 hle), fun _ => ⟨rfl, (hu s.top).2, rfl, rfl⟩⟩
    simp only [Option.map_some, St.setX, St.addPage, (hu _).1]
  · next hng =>
    refine ⟨_, rfl, fun x => ?_, fun _ => rfl, fun hlt => absurd hlt hng⟩
    simp only [Option.map_some, St.setX, (hu _).1]

/-- **C22** In every unit: the new-page decision is monotone in the height, at most one page is added, and without a new
page only y changes. (The margin is taken in the wrong unit, see `new_y_unit_fails`, so the decision itself is only
right in points.) -/
theorem new_y_any_unit (s : St) (p : Rect) (hs : s.pageSize = some p) (y h : ℚ) :
    ∃ s', s.setNewY y h = some s' ∧ (s' = { s with y := toPoints s.cfg y } ∨ s'.pages = s.pages + 1) ∧
      (s'.pages = s.pages ∨ s'.pages = s.pages + 1) ∧
      (0 ≤ s.cfg.conv → ∀ h' s'', h ≤ h' → s.setNewY y h' = some s'' → s'.pages ≤ s''.pages) := by
  have key : ∀ h, ∃ s', s.setNewY y h = some s' ∧
      ((s' = { s with y := toPoints s.cfg y } ∧ ¬ s.y + toPoints s.cfg h > p.h - s.marginBottom) ∨
       (s'.pages = s.pages + 1 ∧ s.y + toPoints s.cfg h > p.h - s.marginBottom)) := by
    intro h
    simp only [St.setNewY, St.break, hs]
    split
    · next hgt => exact ⟨_, rfl, Or.inr ⟨rfl, hgt⟩⟩
    · next hng => exact ⟨_, rfl, Or.inl ⟨rfl, hng⟩⟩
  obtain ⟨s', e, hd⟩ := key h
  refine ⟨s', e, ?_, ?_, ?_⟩
  · rcases hd with ⟨h1, _⟩ | ⟨h1, _⟩
    · exact Or.inl h1
    · exact Or.inr h1
  · rcases hd with ⟨h1, _⟩ | ⟨h1, _⟩
    · left; rw [h1]
    · exact Or.inr h1
  · intro hc h' s'' hh e'
    obtain ⟨t, et, ht⟩ := key h'
    rw [e'] at et
    cases et
    have mono : toPoints s.cfg h ≤ toPoints s.cfg h' := by
      rcases eq_or_lt_of_le hh with rfl | hlt
      · exact le_refl _
      · exact le_of_lt ((units_monotone s.cfg hc h h').2 hlt)
    rcases hd with ⟨h1, h2⟩ | ⟨h1, h2⟩ <;> rcases ht with ⟨h3, h4⟩ | ⟨h3, h4⟩
    · rw [h1, h3]
    · rw [h1, h3]; exact Nat.le_succ _
    · exact absurd (lt_of_lt_of_le h2 (by linarith)) h4
    · rw [h1, h3]

/-- **C22** In millimetres both margins are wrong: on a page 297 mm high with 20 mm margins, an element of 10 mm at
y = 275 mm (reaching 8 mm into the bottom margin) starts no page; and when a page is started the cursor is at 20 points,
not at 20 mm. -/
theorem new_y_unit_fails : ∃ s : St, s.cfg = ⟨2, 0⟩ ∧ s.marginBottom = 20 ∧ s.marginTop = 20 ∧
    (∃ p, s.pageSize = some p ∧ p.h = toPoints s.cfg 297 ∧ s.y = toPoints s.cfg 275) ∧
    (∃ s', s.setNewYIfNoOffset 275 10 = some s' ∧ s'.pages = s.pages) ∧
    (∃ s', s.setNewYIfNoOffset 275 30 = some s' ∧ s'.pages = s.pages + 1 ∧ s'.y = 20 ∧ s'.getY ≠ 20) := by
  refine ⟨((((start ⟨2, 0⟩ { w := 210, h := 297 }).setMargins 20 20 20 20)).addPage none).setY 275, rfl, ?_, ?_, ?_, ?_, ?_⟩
  · simp only [start, St.setMargins, St.addPage, St.setY, St.marginBottom, toPoints, fromPoints, factor]; norm_num
  · simp only [start, St.setMargins, St.addPage, St.setY, St.marginTop, toPoints, fromPoints, factor]; norm_num
  · exact ⟨_, rfl, by simp [start, St.setMargins, Rect.toPointsC, St.setY, St.addPage], rfl⟩
  · simp only [St.setNewYIfNoOffset, St.break, start, St.setMargins, St.addPage, St.setY, St.marginBottom, Rect.toPointsC,
      toPoints, fromPoints, factor]
    norm_num
  · simp only [St.setNewYIfNoOffset, St.break, start, St.setMargins, St.addPage, St.setY, St.marginBottom, St.marginTop,
      Rect.toPointsC, toPoints, fromPoints, factor, St.getY]
    norm_num

/-- **C22** Before the first page the calls panic (nil page size). -/
theorem new_y_without_page (s : St) (hs : s.pageSize = none) (x y h : ℚ) :
    s.setNewY y h = none ∧ s.setNewYIfNoOffset y h = none ∧ s.setNewXY y x h = none := by
  simp [St.setNewXY, St.setNewY, St.setNewYIfNoOffset, St.break, hs]

/-- **C22** AddPage puts the cursor at the left and top margin, in every unit. -/
theorem add_page_cursor (s : St) (size : Option Rect) : (s.addPage size).getX = s.marginLeft ∧
    (s.addPage size).getY = s.marginTop := ⟨rfl, rfl⟩

example : InPoints ⟨1, 0⟩ ∧ InPoints ⟨0, 0⟩ ∧ ((start ⟨1, 0⟩ { w := 595, h := 842 }).addPage none).pageSize =
    some { w := 595, h := 842 } := by
  refine ⟨⟨rfl, by simp [factor]⟩, ⟨rfl, by simp [factor]⟩, ?_⟩
  simp [start, St.addPage, Rect.toPointsC, toPoints, factor]

end Verif.Props
