import Mathlib.Algebra.Order.Field.Rat
import Mathlib.Tactic.NormNum
/-
Model of unit conversion (config.go), rectangles (rect.go), margins (margin.go) and the cursor with its automatic page
break (gopdf.go 343-485, 806-849, 2193-2196).
Simplification: float64 arithmetic is exact rational arithmetic (no rounding, no NaN or infinities).
-/
namespace Verif.Units

/-- `unitConfigurator` (config.go 135-150): `Unit` and `ConversionForUnit`. -/
structure Cfg where
  unit : Int
  conv : ℚ := 0
deriving DecidableEq, Repr

/-- The constants `conversionUnit...` (config.go 13-21) by unit (config.go 5-10); 1 for every other value (`default`). -/
def factor (unit : Int) : ℚ :=
  if unit = 1 then 1 else if unit = 2 then 72 / (254 / 10) else if unit = 3 then 72 / (254 / 100)
  else if unit = 4 then 72 else if unit = 5 then 3 / 4 else 1

/-- `unitsToPoints` (config.go 68-86). -/
def toPoints (c : Cfg) (u : ℚ) : ℚ := if c.conv ≠ 0 then u * c.conv else u * factor c.unit

/-- `pointsToUnits` (config.go 93-111). -/
def fromPoints (c : Cfg) (u : ℚ) : ℚ := if c.conv ≠ 0 then u / c.conv else u / factor c.unit

/-- `Rect` (rect.go 4-8). -/
structure Rect where
  w : ℚ
  h : ℚ
  override : Cfg := ⟨0, 0⟩
deriving DecidableEq, Repr

/-- `Rect.UnitsToPoints(t)` (rect.go 27-41): only the unit is passed, not the custom factor. -/
def Rect.toPointsT (r : Rect) (t : Int) : Rect :=
  let c := if r.override.unit ≠ 0 then r.override else ⟨t, 0⟩
  { w := toPoints c r.w, h := toPoints c r.h }

/-- `Rect.PointsToUnits(t)` (rect.go 11-24). -/
def Rect.toUnitsT (r : Rect) (t : Int) : Rect :=
  let c := if r.override.unit ≠ 0 then r.override else ⟨t, 0⟩
  { w := fromPoints c r.w, h := fromPoints c r.h }

/-- `Rect.unitsToPoints(cfg)` (rect.go 43-53). -/
def Rect.toPointsC (r : Rect) (cfg : Cfg) : Rect :=
  let c := if r.override.unit ≠ 0 then r.override else cfg
  { w := toPoints c r.w, h := toPoints c r.h }

/-- The part of `GoPdf` concerned: config, margins, cursor and page size in points, number of pages; `pageSize` is nil
before the first page. -/
structure St where
  cfg : Cfg
  defaultSize : Rect
  left : ℚ
  top : ℚ
  right : ℚ
  bottom : ℚ
  x : ℚ := 0
  y : ℚ := 0
  pageSize : Option Rect := none
  pages : Nat := 0
deriving DecidableEq, Repr

/-- `Start` (gopdf.go 883-918, `init` 2129-2182): default margins of 10 points (gopdf.go 28), the page size converted. -/
def start (cfg : Cfg) (size : Rect) : St :=
  { cfg := cfg, defaultSize := size.toPointsC cfg, left := 10, top := 10, right := 10,
    bottom := 10 }

/-- `AddPageWithOption` (gopdf.go 806-849) as far as the cursor is concerned; header and footer functions are followed by
another `resetCurrXY` (841-848), so they do not change the result. -/
def St.addPage (s : St) (size : Option Rect) : St :=
  { s with
    pageSize := some (match size with | some r => r.toPointsT s.cfg.unit | none => s.defaultSize)
    pages := s.pages + 1, x := s.left, y := s.top }

/-- `MarginTop`, `MarginBottom`, `MarginLeft`, `MarginRight` (margin.go 55-72): in units. -/
def St.marginTop (s : St) : ℚ := fromPoints s.cfg s.top
def St.marginBottom (s : St) : ℚ := fromPoints s.cfg s.bottom
def St.marginLeft (s : St) : ℚ := fromPoints s.cfg s.left
def St.marginRight (s : St) : ℚ := fromPoints s.cfg s.right

/-- `Margins` (margin.go 47-52): left, top, right, bottom. -/
def St.margins (s : St) : ℚ × ℚ × ℚ × ℚ := (fromPoints s.cfg s.left, fromPoints s.cfg s.top, fromPoints s.cfg s.right, fromPoints s.cfg s.bottom)

/-- `SetLeftMargin`, `SetMarginLeft`, `SetTopMargin`, `SetMarginTop`, `SetMarginRight`, `SetMarginBottom` (margin.go 9-18, 26-44). -/
def St.setMarginLeft (s : St) (m : ℚ) : St := { s with left := toPoints s.cfg m }
def St.setMarginTop (s : St) (m : ℚ) : St := { s with top := toPoints s.cfg m }
def St.setMarginRight (s : St) (m : ℚ) : St := { s with right := toPoints s.cfg m }
def St.setMarginBottom (s : St) (m : ℚ) : St := { s with bottom := toPoints s.cfg m }

/-- `SetMargins` (margin.go 21-24). -/
def St.setMargins (s : St) (l t r b : ℚ) : St :=
  { s with left := toPoints s.cfg l, top := toPoints s.cfg t, right := toPoints s.cfg r, bottom := toPoints s.cfg b }

/-- `SetX`, `SetY`, `SetXY`, `GetX`, `GetY`, `Br` (gopdf.go 344-373, 467-485). -/
def St.setX (s : St) (x : ℚ) : St := { s with x := toPoints s.cfg x }
def St.setY (s : St) (y : ℚ) : St := { s with y := toPoints s.cfg y }
def St.setXY (s : St) (x y : ℚ) : St := { s with x := toPoints s.cfg x, y := toPoints s.cfg y }
def St.getX (s : St) : ℚ := fromPoints s.cfg s.x
def St.getY (s : St) : ℚ := fromPoints s.cfg s.y
def St.br (s : St) (h : ℚ) : St := { s with y := s.y + toPoints s.cfg h, x := s.left }

/-- The test of SetNewY and its variants (gopdf.go 386, 402, 419) and the page break (387-391): `at'` is `curr.Y` or the new
y, both in points; `MarginBottom()` and `MarginTop()` are in units. `none`: nil dereference before the first page. -/
def St.break (s : St) (at' y h : ℚ) : Option St :=
  match s.pageSize with
  | none => none
  | some p =>
    if at' + h > p.h - s.marginBottom then some { s.addPage none with y := (s.addPage none).marginTop }
    else some { s with y := y }

/-- `SetNewY` (gopdf.go 383-392). -/
def St.setNewY (s : St) (y h : ℚ) : Option St := s.break s.y (toPoints s.cfg y) (toPoints s.cfg h)

/-- `SetNewYIfNoOffset` (gopdf.go 399-408). -/
def St.setNewYIfNoOffset (s : St) (y h : ℚ) : Option St :=
  s.break (toPoints s.cfg y) (toPoints s.cfg y) (toPoints s.cfg h)

/-- `SetNewXY` (gopdf.go 416-426). -/
def St.setNewXY (s : St) (y x h : ℚ) : Option St := (s.setNewY y h).map (·.setX x)

end Verif.Units
