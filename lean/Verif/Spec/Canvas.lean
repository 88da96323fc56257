import Verif.Model.Content
/-
Independent specification: the drawing calls as an immediate-mode canvas.  A canvas has sheets; a sheet has a height, a pen
(line width, dash pattern, colours, transformation, clipping), the pens saved on it, and the figures painted so far.  A call
acts at once on the current sheet: it changes the pen or paints a figure with the pen as it is now.  Positions are measured
from the upper left corner of the sheet, in the document's unit; a figure is recorded in points from the lower left corner.
-/
namespace Verif.Canvas
open Content (Call Env ImageItem Crop)
open Paint (Mat Seg PaintKind Colour)
open Units (toPoints Cfg)

structure Pen where
  width : ℚ := 1
  dash : List ℚ × ℚ := ([], 0)
  stroke : Colour := .gray 0
  fill : Colour := .gray 0
  ctm : Mat := Mat.one
  clip : List (Mat × List Seg × Bool) := []
  deriving DecidableEq, Repr

/-- A figure, with the graphics state dictionaries (transparency, soft mask) it is painted with. -/
inductive Figure where
  | path (k : PaintKind) (p : List Seg) (pen : Pen) (ext : List Nat)
  /-- the image number `n`: where its unit square goes -/
  | image (n : Nat) (m : Mat) (ext : List Nat)
  | template (name : List UInt8) (m : Mat)
  deriving DecidableEq, Repr

structure Sheet where
  height : ℚ
  pen : Pen := {}
  saved : List Pen := []
  figs : List Figure := []
  deriving DecidableEq, Repr

structure Canvas where
  sheets : List Sheet
  cur : Nat
  /-- the current transparency -/
  trans : Option Nat := none
  deriving DecidableEq, Repr

/-- The point at `(x, y)` in the document's unit, measured from the upper left corner of a sheet of height `h`. -/
def toPage (cfg : Cfg) (h : ℚ) (p : ℚ × ℚ) : ℚ × ℚ := (toPoints cfg p.1, h - toPoints cfg p.2)

/-- The rotation with cosine `c` and sine `s` about the point `o`: `p ↦ o + R (p - o)`. -/
def rotation (c s : ℚ) (o : ℚ × ℚ) : Mat := ⟨c, s, -s, c, o.1 - c * o.1 + s * o.2, o.2 - s * o.1 - c * o.2⟩

/-- The rectangle with the given lower left corner, size in the document's unit. -/
def box (cfg : Cfg) (p : ℚ × ℚ) (w h : ℚ) : List Seg := [.rect p.1 p.2 (toPoints cfg w) (toPoints cfg h)]

/-- The closed curve of four arcs through the middles of the sides of the box around `o` with half width `rx` and half height
`ry`, counterclockwise from the bottom, with control points at 0.55228 of the half sides. -/
def ellipse (o : ℚ × ℚ) (rx ry : ℚ) : List Seg :=
  let k : ℚ := 55228 / 100000
  [.move (o.1, o.2 - ry),
   .curve (o.1 + k * rx, o.2 - ry) (o.1 + rx, o.2 - k * ry) (o.1 + rx, o.2),
   .curve (o.1 + rx, o.2 + k * ry) (o.1 + k * rx, o.2 + ry) (o.1, o.2 + ry),
   .curve (o.1 - k * rx, o.2 + ry) (o.1 - rx, o.2 + k * ry) (o.1 - rx, o.2),
   .curve (o.1 - rx, o.2 - k * ry) (o.1 - k * rx, o.2 - ry) (o.1, o.2 - ry)]

/-- From point to point. -/
def chain (pts : List (ℚ × ℚ)) : List Seg := match pts with
  | [] => []
  | p :: rest => .move p :: rest.map .line

/-- A number brought into the range from 0 to 1. -/
def clamp (v : ℚ) : ℚ := max 0 (min 1 v)

/-- The size of the part of an image that is shown. -/
def shown (i : ImageItem) : ℚ × ℚ := match i.crop with
  | some c => (c.width, c.height)
  | none => (i.rect.w, i.rect.h)

/-- The distance of the shown part's upper left corner from the image's upper left corner. -/
def cropOffset (i : ImageItem) : ℚ × ℚ := match i.crop with
  | some c => (c.x, c.y)
  | none => (0, 0)

/-- The unit square to the box of the given lower left corner and size, mirrored if asked for. -/
def unitToBox (x y w h : ℚ) (mirrorX mirrorY : Bool) : Mat :=
  ⟨if mirrorX then -w else w, 0, 0, if mirrorY then -h else h, if mirrorX then x + w else x, if mirrorY then y + h else y⟩

/-- Where an image goes on a sheet of height `h`: the upper left corner of the shown part at `(x, y)`, mirrored in its box,
then rotated about the middle of the shown part (an image with a mask by the two angles together). -/
def imageMatrix (e : Env) (h : ℚ) (i : ImageItem) : Mat :=
  (unitToBox (i.x - (cropOffset i).1) (h - i.y + (cropOffset i).2 - i.rect.h) i.rect.w i.rect.h
      i.horizontalFlip i.verticalFlip).mul
    (if i.withMask ∧ i.maskAngle + i.imageAngle = 0 then Mat.one
     else
      let angle := if i.withMask then i.maskAngle + i.imageAngle else i.imageAngle
      rotation (e.cos angle) (e.sin angle) (i.x + (shown i).1 / 2, h - (i.y + (shown i).2 / 2)))

/-- Change the current sheet; `none` if that fails (or there is no such sheet). -/
def Canvas.on (c : Canvas) (f : Sheet → Option Sheet) : Option Canvas :=
  match c.sheets[c.cur]? with
  | none => none
  | some sh => (f sh).map fun sh' => { c with sheets := c.sheets.set c.cur sh' }

def Sheet.paint (sh : Sheet) (k : PaintKind) (p : List Seg) (ext : List Nat) : Sheet :=
  { sh with figs := sh.figs ++ [.path k p sh.pen ext] }

/-- The call's own transparency if it has one, otherwise the current one. -/
def Canvas.transFor (c : Canvas) (tr : Option (Option Nat)) : List Nat := (tr.getD c.trans).toList

/-- Calls that act on one sheet. -/
def Sheet.call (e : Env) (tr : Option Nat) (sh : Sheet) : Call → Option Sheet
  | .setLineWidth w => some { sh with pen := { sh.pen with width := toPoints e.cfg w } }
  | .setLineType dashed dotted => some { sh with pen := { sh.pen with dash :=
      if dashed then ([5], 2) else if dotted then ([2, 3], 11) else ([], 0) } }
  | .setCustomLineType a ph => some { sh with pen := { sh.pen with dash := (a.map (toPoints e.cfg), toPoints e.cfg ph) } }
  | .setGrayFill v => some { sh with pen := { sh.pen with fill := .gray (clamp v) } }
  | .setGrayStroke v => some { sh with pen := { sh.pen with stroke := .gray (clamp v) } }
  | .setColour true r g b => some { sh with pen := { sh.pen with stroke := .rgb (r / 255) (g / 255) (b / 255) } }
  | .setColour false r g b => some { sh with pen := { sh.pen with fill := .rgb (r / 255) (g / 255) (b / 255) } }
  | .setColourCMYK true c m y k => some { sh with pen := { sh.pen with stroke := .cmyk (c / 100) (m / 100) (y / 100) (k / 100) } }
  | .setColourCMYK false c m y k => some { sh with pen := { sh.pen with fill := .cmyk (c / 100) (m / 100) (y / 100) (k / 100) } }
  | .setColourSpace n => some { sh with pen := { sh.pen with stroke := .named (n + 1) } }
  | .save => some { sh with saved := sh.pen :: sh.saved }
  | .rotate a x y => some { sh with
      saved := sh.pen :: sh.saved
      pen := { sh.pen with ctm := (rotation (e.cos a) (e.sin a) (toPage e.cfg sh.height (x, y))).mul sh.pen.ctm } }
  | .restore | .rotateReset => match sh.saved with
    | p :: rest => some { sh with pen := p, saved := rest }
    | [] => none
  | .clipPolygon pts => if pts = [] then none else some { sh with pen := { sh.pen with
      clip := sh.pen.clip ++ [(sh.pen.ctm, chain (pts.map (toPage e.cfg sh.height)) ++ [.close], false)] } }
  | .line x1 y1 x2 y2 =>
    some (sh.paint .stroke (chain [toPage e.cfg sh.height (x1, y1), toPage e.cfg sh.height (x2, y2)]) tr.toList)
  | .rectLower x y w h => some (sh.paint .stroke (box e.cfg (toPage e.cfg sh.height (x, y)) w h) [])
  | .rectUpper x y w h => some (sh.paint .stroke (box e.cfg (toPage e.cfg sh.height (x, y + h)) w h) [])
  | .rectLowerOpt x y w h st t => some (sh.paint st (box e.cfg (toPage e.cfg sh.height (x, y)) w h) (t.getD tr).toList)
  | .rectUpperOpt x y w h st t => some (sh.paint st (box e.cfg (toPage e.cfg sh.height (x, y + h)) w h) (t.getD tr).toList)
  | .oval x1 y1 x2 y2 => some (sh.paint .stroke (ellipse (toPage e.cfg sh.height ((x1 + x2) / 2, (y1 + y2) / 2))
      (toPoints e.cfg ((x2 - x1) / 2)) (toPoints e.cfg ((y2 - y1) / 2))) [])
  | .curve p0 p1 p2 p3 st => some (sh.paint st [.move (toPage e.cfg sh.height p0),
      .curve (toPage e.cfg sh.height p1) (toPage e.cfg sh.height p2) (toPage e.cfg sh.height p3)] [])
  | .polygon pts st => if pts = [] then none else some (sh.paint st (chain (pts.map (toPage e.cfg sh.height)) ++
      (if st = .fill then [] else [.close])) tr.toList)
  | .image i => some { sh with figs := sh.figs ++ [.image (i.index + 1) ((imageMatrix e sh.height i).mul sh.pen.ctm) i.ext] }
  | .template sx sy tx ty name => some { sh with figs := sh.figs ++
      [.template name ((⟨sx, 0, 0, sy, tx, sh.height + ty⟩ : Mat).mul sh.pen.ctm)] }
  | _ => some sh

/-- One call. -/
def Canvas.call (e : Env) (c : Canvas) : Call → Option Canvas
  | .addPage h => some { c with sheets := c.sheets ++ [{ height := h }], cur := c.sheets.length }
  | .setPage n => some (if n < c.sheets.length then { c with cur := n } else c)
  | .setTransparency n => some { c with trans := n }
  | k => c.on fun sh => sh.call e c.trans k

def Canvas.calls (e : Env) : Canvas → List Call → Option Canvas
  | c, [] => some c
  | c, k :: rest => (c.call e k).bind fun c' => c'.calls e rest

/-- A canvas with one sheet. -/
def blank (height : ℚ) : Canvas := { sheets := [{ height := height }], cur := 0 }

/-! ### What a reader paints, as figures -/

def penOf (g : Paint.GState) : Pen :=
  { width := g.lineWidth, dash := g.dash, stroke := g.stroke, fill := g.fill, ctm := g.ctm, clip := g.clip }

/-- Glyphs are no figures. -/
def figure : Paint.Mark → Option Figure
  | .glyph _ _ _ => none
  | .shape k p g => some (.path k p (penOf g) g.ext)
  | .image n g => some (.image n g.ctm g.ext)
  | .template s g => some (.template s g.ctm)

def figures (l : List Paint.Mark) : List Figure := l.filterMap figure

/-- The figure without the fill colour. -/
def Figure.noFill : Figure → Figure
  | .path k p pen ext => .path k p { pen with fill := .gray 0 } ext
  | f => f

/-- Text without underline and cells without borders (those are drawn as figures). -/
def Undecorated : Call → Prop
  | .setFont _ style _ => style &&& 4 = 0
  | .cellWithOption _ _ opt _ => opt.border &&& 15 = 0
  | _ => True

/-- An image with a mask is not rotated, or neither mirrored nor cropped. -/
def MaskUpright : Call → Prop
  | .image i => i.withMask = true →
      i.maskAngle + i.imageAngle = 0 ∨ (i.horizontalFlip = false ∧ i.verticalFlip = false ∧ i.crop = none)
  | _ => True

/-- `SetPage` only turns to sheets of the same height as the current one. -/
def LevelTurns (e : Env) : Canvas → List Call → Prop
  | _, [] => True
  | c, k :: rest => (∀ n, k = .setPage n → ∀ sh sh' : Sheet, c.sheets[c.cur]? = some sh → c.sheets[n]? = some sh' →
      sh'.height = sh.height) ∧ ∀ c', c.call e k = some c' → LevelTurns e c' rest

end Verif.Canvas
