import Verif.Spec.Paint
/-
Options given as strings: font styles (font_option.go), paint styles (style.go, cache_contnent_curve.go, cache_content_polygon.go), line types
(cache_content_line_type.go), blend modes (transparency.go).

Simplifications: strings are their characters (those that are not UTF-8 are left out); `unicode.ToUpper` and `unicode.IsSpace` are parameters; an
alpha is a rational number, so NaN is left out.
-/
namespace Verif.Options
open Paint (PaintKind)

/-- `getConvertedStyle` (font_option.go 16-28); `strings.ToUpper` maps every character. -/
def convertedStyle (upper : Char → Char) (s : List Char) : Nat :=
  let s := s.map upper
  let style := 0
  let style := if s.contains 'B' then style ||| 2 else style
  let style := if s.contains 'I' then style ||| 1 else style
  if s.contains 'U' then style ||| 4 else style

/-- `parseStyle` (style.go 11-20): `RectFromLowerLeftWithStyle`, `RectFromUpperLeftWithStyle`. -/
def parseStyle (s : List Char) : PaintKind :=
  if s = ['F'] then .fill else if s = ['F', 'D'] ∨ s = ['D', 'F'] then .both else .stroke

/-- `strings.TrimSpace`. -/
def trimSpace (space : Char → Bool) (s : List Char) : List Char := ((s.dropWhile space).reverse.dropWhile space).reverse

/-- `Curve` (content_obj.go 296, cache_contnent_curve.go 40-46). -/
def curveStyle (upper : Char → Char) (space : Char → Bool) (s : List Char) : PaintKind := parseStyle ((trimSpace space s).map upper)

/-- `Polygon` (cache_content_polygon.go 32-38). -/
def polygonStyle (s : List Char) : PaintKind :=
  if s = ['F'] then .fill else if s = ['F', 'D'] ∨ s = ['D', 'F'] then .both else .stroke

/-- `SetLineType` (cache_content_line_type.go 12-22): is it "dashed", is it "dotted"?  (The two fields of `Content.Call.setLineType`.) -/
def lineType (s : List Char) : Bool × Bool := (s = "dashed".toList, s = "dotted".toList)

/-- `BlendModeType` (transparency.go 10-29). -/
inductive Blend where
  | hue | color | normal | darken | screen | overlay | lighten | multiply | exclusion | colorBurn | hardLight | softLight | difference
  | saturation | luminosity | colorDodge
deriving DecidableEq

/-- The constants' values. -/
def Blend.value : Blend → List Char
  | .hue => "/Hue".toList
  | .color => "/Color".toList
  | .normal => "/Normal".toList
  | .darken => "/Darken".toList
  | .screen => "/Screen".toList
  | .overlay => "/Overlay".toList
  | .lighten => "/Lighten".toList
  | .multiply => "/Multiply".toList
  | .exclusion => "/Exclusion".toList
  | .colorBurn => "/ColorBurn".toList
  | .hardLight => "/HardLight".toList
  | .softLight => "/SoftLight".toList
  | .difference => "/Difference".toList
  | .saturation => "/Saturation".toList
  | .luminosity => "/Luminosity".toList
  | .colorDodge => "/ColorDodge".toList

/-- `defineBlendModeType` (transparency.go 97-134), case by case. -/
def defineBlend (s : List Char) : Option Blend :=
  if s = Blend.value .hue then some .hue
  else if s = Blend.value .color then some .color
  else if s = [] ∨ s = Blend.value .normal then some .normal
  else if s = Blend.value .darken then some .darken
  else if s = Blend.value .screen then some .screen
  else if s = Blend.value .overlay then some .overlay
  else if s = Blend.value .lighten then some .lighten
  else if s = Blend.value .multiply then some .multiply
  else if s = Blend.value .exclusion then some .exclusion
  else if s = Blend.value .colorBurn then some .colorBurn
  else if s = Blend.value .hardLight then some .hardLight
  else if s = Blend.value .softLight then some .softLight
  else if s = Blend.value .difference then some .difference
  else if s = Blend.value .saturation then some .saturation
  else if s = Blend.value .luminosity then some .luminosity
  else if s = Blend.value .colorDodge then some .colorDodge
  else none

/-- `NewTransparency` (transparency.go 40-55): `none` is an error. -/
def newTransparency (alpha : ℚ) (s : List Char) : Option (ℚ × Blend) :=
  if alpha < 0 ∨ alpha > 1 then none else (defineBlend s).map fun b => (alpha, b)

end Verif.Options
