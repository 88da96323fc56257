import Verif.Model.Content
import Mathlib.Algebra.Order.Field.Basic
/-
`Rectangle` (gopdf.go 2051-2127): a rectangle with corners approximated by points on a circle.  The arithmetic is that of any
ordered field, so that it can be used with the rational operands of the content model and with real cosine and sine.
-/
namespace Verif.Rectangle
variable {K : Type*} [Field K] [LinearOrder K]

/-- The loop of gopdf.go 2073-2076: at most `fuel` rounds. -/
def degreeLoop (angle : K) : Nat → K → List K
  | 0, _ => []
  | fuel + 1, acc => if acc < 90 then acc :: degreeLoop angle fuel (acc + angle) else []

/-- The angles of one corner (gopdf.go 2070-2076).  `fuel` is one more than the number of rounds the loop makes
(`degrees_eq`). -/
def degrees (n : Nat) : List K := degreeLoop (90 / ((n : K) + 1)) (n + 1) (90 / ((n : K) + 1))

/-- The four corners with the points next to them (gopdf.go 2084-2092, 2094-2103, 2105-2113, 2115-2124); `cos` and `sin` take
degrees (conversion to radians: 2081-2083). -/
def corner1 (cos sin : K → K) (x0 y0 radius : K) (ds : List K) : List (K × K) :=
  (x0, y0 + radius) :: ds.map (fun v => (x0 + radius - radius * cos v, y0 + radius - radius * sin v)) ++ [(x0 + radius, y0)]
def corner2 (cos sin : K → K) (y0 x1 radius : K) (ds : List K) : List (K × K) :=
  (x1 - radius, y0) :: ds.reverse.map (fun v => (x1 - radius + radius * cos v, y0 + radius - radius * sin v)) ++ [(x1, y0 + radius)]
def corner3 (cos sin : K → K) (x1 y1 radius : K) (ds : List K) : List (K × K) :=
  (x1, y1 - radius) :: ds.map (fun v => (x1 - radius + radius * cos v, y1 - radius + radius * sin v)) ++ [(x1 - radius, y1)]
def corner4 (cos sin : K → K) (x0 y1 radius : K) (ds : List K) : List (K × K) :=
  (x0 + radius, y1) :: ds.reverse.map (fun v => (x0 + radius - radius * cos v, y1 - radius + radius * sin v)) ++ [(x0, y1 - radius)]

/-- The points given to `Polygon`; `none` is `ErrInvalidRectangleCoordinates`. -/
def points (cos sin : K → K) (x0 y0 x1 y1 radius : K) (radiusPointNum : Int) : Option (List (K × K)) :=
  if x1 ≤ x0 ∨ y1 ≤ y0 then none
  else if radiusPointNum ≤ 0 ∨ radius ≤ 0 then some [(x0, y0), (x1, y0), (x1, y1), (x0, y1)]
  else if radius > x1 - x0 ∨ radius > y1 - y0 then none
  else
    let ds := degrees radiusPointNum.toNat
    some (corner1 cos sin x0 y0 radius ds ++ corner2 cos sin y0 x1 radius ds ++ corner3 cos sin x1 y1 radius ds ++
      corner4 cos sin x0 y1 radius ds)

/-- `Rectangle` as a call on a document (gopdf.go 2062, 2126); `none`: the error, nothing is drawn. -/
def call (e : Content.Env) (x0 y0 x1 y1 : ℚ) (style : Paint.PaintKind) (radius : ℚ) (n : Int) : Option Content.Call :=
  (points e.cos e.sin x0 y0 x1 y1 radius n).map fun ps => .polygon ps style

end Verif.Rectangle
