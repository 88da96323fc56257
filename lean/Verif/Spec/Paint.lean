import Verif.Spec.TextShow
import Mathlib.Algebra.Order.Field.Rat
/-
Independent specification: the operators of a content stream and a reader that executes them, after ISO 32000-1 §8.2
(figure 9: which operators may occur at page level, in a path, after a clipping operator and in a text object), §8.4
(graphics state stack), §8.5 (paths), §9.4 (text).  Operands are exact numbers.
-/
namespace Verif.Paint
open TextShow (Item)

/-- A colour as a colour operator sets it. -/
inductive Colour where
  | gray (g : ℚ)
  | rgb (r g b : ℚ)
  | cmyk (c m y k : ℚ)
  /-- the tint 1 of a named colour space -/
  | named (n : Nat)
  deriving DecidableEq, Repr

/-- A transformation matrix `[a b c d e f]`. -/
structure Mat where
  a : ℚ
  b : ℚ
  c : ℚ
  d : ℚ
  e : ℚ
  f : ℚ
  deriving DecidableEq, Repr

def Mat.one : Mat := ⟨1, 0, 0, 1, 0, 0⟩

/-- The point a matrix maps `p` to (§8.3.3: row vectors). -/
def Mat.app (m : Mat) (p : ℚ × ℚ) : ℚ × ℚ := (m.a * p.1 + m.c * p.2 + m.e, m.b * p.1 + m.d * p.2 + m.f)

/-- `m · n`: first `m`, then `n` (§8.3.4). -/
def Mat.mul (m n : Mat) : Mat :=
  ⟨m.a * n.a + m.b * n.c, m.a * n.b + m.b * n.d, m.c * n.a + m.d * n.c, m.c * n.b + m.d * n.d,
   m.e * n.a + m.f * n.c + n.e, m.e * n.b + m.f * n.d + n.f⟩

/-- Parts of a path, in user space. -/
inductive Seg where
  | move (p : ℚ × ℚ)
  | line (p : ℚ × ℚ)
  | curve (p q r : ℚ × ℚ)
  | rect (x y w h : ℚ)
  | close
  deriving DecidableEq, Repr

inductive PaintKind where
  | stroke | fill | both
  deriving DecidableEq, Repr

/-- Operators with their operands. -/
inductive Op where
  | q | Q
  | gs (n : Nat)
  | cm (m : Mat)
  | w (x : ℚ)
  | J (n : Nat) | j (n : Nat)
  | d (dash : List ℚ) (phase : ℚ)
  | fillColour (c : Colour)
  | strokeColour (c : Colour)
  | m (p : ℚ × ℚ) | l (p : ℚ × ℚ) | c (p q r : ℚ × ℚ) | re (x y w h : ℚ) | h
  /-- `S`, `f`, `B`; with `close` the operators `s` and `b` -/
  | paint (close : Bool) (k : PaintKind)
  | n
  | W (evenOdd : Bool)
  | BT | ET
  | Td (x y : ℚ)
  | Tf (font : Nat) (size : ℚ)
  | Tc (x : ℚ)
  | TJ (items : List Item)
  /-- `Do` with a name: `/I5` and the like -/
  | image (n : Nat)
  | template (name : List UInt8)
  deriving DecidableEq, Repr

/-- The graphics state parameters the library sets. -/
structure GState where
  ctm : Mat := Mat.one
  fill : Colour := .gray 0
  stroke : Colour := .gray 0
  font : Option (Nat × ℚ) := none
  charSpace : ℚ := 0
  lineWidth : ℚ := 1
  cap : Nat := 0
  join : Nat := 0
  dash : List ℚ × ℚ := ([], 0)
  /-- graphics state parameter dictionaries applied, in order -/
  ext : List Nat := []
  /-- clipping paths: matrix, path, even-odd rule -/
  clip : List (Mat × List Seg × Bool) := []
  deriving DecidableEq, Repr

/-- Where a reader is (figure 9). -/
inductive Level where
  | page
  | path (p : List Seg)
  | clip (p : List Seg) (evenOdd : Bool)
  /-- in a text object: start of the line, pen -/
  | text (line pen : ℚ × ℚ)
  deriving DecidableEq, Repr

/-- What is painted, with the graphics state at that moment. -/
inductive Mark where
  | glyph (code : Nat) (pos : ℚ × ℚ) (g : GState)
  | shape (k : PaintKind) (p : List Seg) (g : GState)
  | image (n : Nat) (g : GState)
  | template (name : List UInt8) (g : GState)
  deriving DecidableEq, Repr

structure Reader where
  g : GState := {}
  stack : List GState := []
  level : Level := .page
  marks : List Mark := []
  deriving DecidableEq, Repr

/-- The widths the fonts of the document declare: font, code, width in thousandths. -/
abbrev Widths := Nat → Nat → ℚ

/-- Showing the elements of a `TJ` array (§9.4.3, 9.4.4): each code is painted at the pen, which advances by its width
and the character spacing; a number moves the pen back by thousandths of the font size. -/
def show' (wd : Widths) (g : GState) (font : Nat) (size : ℚ) : ℚ × ℚ → List Item → (ℚ × ℚ) × List Mark
  | pen, [] => (pen, [])
  | pen, .code c :: rest =>
    let r := show' wd g font size (pen.1 + wd font c / 1000 * size + g.charSpace, pen.2) rest
    (r.1, .glyph c pen g :: r.2)
  | pen, .adjust n :: rest => show' wd g font size (pen.1 - n / 1000 * size, pen.2) rest

/-- Execute one operator; `none` if it is not allowed there. -/
def exec (wd : Widths) (r : Reader) : Op → Option Reader
  | .q => if r.level = .page then some { r with stack := r.g :: r.stack } else none
  | .Q => match r.level, r.stack with
    | .page, g :: st => some { r with g := g, stack := st }
    | _, _ => none
  | .cm m => if r.level = .page then some { r with g := { r.g with ctm := m.mul r.g.ctm } } else none
  | .gs n => state r fun g => { g with ext := g.ext ++ [n] }
  | .w x => state r fun g => { g with lineWidth := x }
  | .J n => state r fun g => { g with cap := n }
  | .j n => state r fun g => { g with join := n }
  | .d a ph => state r fun g => { g with dash := (a, ph) }
  | .fillColour c => state r fun g => { g with fill := c }
  | .strokeColour c => state r fun g => { g with stroke := c }
  | .Tf n s => state r fun g => { g with font := some (n, s) }
  | .Tc x => state r fun g => { g with charSpace := x }
  | .m p => match r.level with
    | .page => some { r with level := .path [.move p] }
    | .path s => some { r with level := .path (s ++ [.move p]) }
    | _ => none
  | .re x y w h => match r.level with
    | .page => some { r with level := .path [.rect x y w h] }
    | .path s => some { r with level := .path (s ++ [.rect x y w h]) }
    | _ => none
  | .l p => extend r (.line p)
  | .c p q s => extend r (.curve p q s)
  | .h => extend r .close
  | .W eo => match r.level with
    | .path s => some { r with level := .clip s eo }
    | _ => none
  | .paint cl k => finish r cl (some k)
  | .n => finish r false none
  | .BT => if r.level = .page then some { r with level := .text (0, 0) (0, 0) } else none
  | .ET => match r.level with
    | .text _ _ => some { r with level := .page }
    | _ => none
  | .Td x y => match r.level with
    | .text l _ => some { r with level := .text (l.1 + x, l.2 + y) (l.1 + x, l.2 + y) }
    | _ => none
  | .TJ items => match r.level, r.g.font with
    | .text l pen, some (f, s) =>
      let o := show' wd r.g f s pen items
      some { r with level := .text l o.1, marks := r.marks ++ o.2 }
    | _, _ => none
  | .image n => if r.level = .page then some { r with marks := r.marks ++ [.image n r.g] } else none
  | .template s => if r.level = .page then some { r with marks := r.marks ++ [.template s r.g] } else none
where
  /-- operators that set a parameter: at page level or in a text object -/
  state (r : Reader) (f : GState → GState) : Option Reader := match r.level with
    | .page => some { r with g := f r.g }
    | .text _ _ => some { r with g := f r.g }
    | _ => none
  extend (r : Reader) (s : Seg) : Option Reader := match r.level with
    | .path p => some { r with level := .path (p ++ [s]) }
    | _ => none
  finish (r : Reader) (cl : Bool) (k : Option PaintKind) : Option Reader :=
    let fin (p : List Seg) (g : GState) : Reader :=
      { r with g := g, level := .page,
               marks := r.marks ++ (match k with
                 | some k => [.shape k (if cl then p ++ [.close] else p) r.g]
                 | none => []) }
    match r.level with
    | .path p => some (fin p r.g)
    | .clip p eo => some (fin p { r.g with clip := r.g.clip ++ [(r.g.ctm, p, eo)] })
    | _ => none

/-- Execute a stream. -/
def run (wd : Widths) : Reader → List Op → Option Reader
  | r, [] => some r
  | r, op :: rest => (exec wd r op).bind fun r' => run wd r' rest

/-- A complete page: every operator was allowed, every `q` has its `Q`, no text object or path is left open. -/
def Complete (wd : Widths) (ops : List Op) : Prop :=
  ∃ r, run wd {} ops = some r ∧ r.level = .page ∧ r.stack = []

end Verif.Paint
