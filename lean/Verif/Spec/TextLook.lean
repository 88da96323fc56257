import Verif.Spec.ContentReader
import Verif.Spec.FontMetrics
/-
Independent specification: how the characters on a page look and where they are - a reader of text operators - and how the caller
asked for them.
-/
namespace Verif.Viewer
open Paint

/-! ### A reader -/

/-- The text state and colour characters are shown with (ISO 32000-1 §9.3, §8.4.1): number and size of the font, character spacing,
fill colour. -/
structure Look where
  font : Option (Nat × ℚ) := none
  spacing : ℚ := 0
  fill : Colour := .gray 0

/-- A code shown; `start` is the place it is shown at (in the coordinates in effect) if it begins a text object, that is: if it comes
right after the one `Td` of a text object. -/
structure Letter where
  code : Nat
  look : Look
  start : Option (ℚ × ℚ)

/-- Where the pen is, as far as this reader follows it: unknown, at the beginning of a text object, moved there by one `Td`. -/
inductive Pen where
  | away
  | begun
  | put (x y : ℚ)

def Pen.place : Pen → Option (ℚ × ℚ)
  | .put x y => some (x, y)
  | _ => none

/-- The codes of an array; only the first element of the array is shown where the pen was. -/
def spell (l : Look) : Option (ℚ × ℚ) → List TextShow.Item → List Letter
  | _, [] => []
  | p, .code c :: rest => ⟨c, l, p⟩ :: spell l none rest
  | _, .adjust _ :: rest => spell l none rest

/-- The codes shown by a page's operators. -/
def letters : Look → List Look → Pen → List Op → List Letter
  | _, _, _, [] => []
  | l, st, p, .q :: ops => letters l (l :: st) p ops
  | l, st, p, .Q :: ops => letters (st.head?.getD l) st.tail p ops
  | l, st, p, .Tf n s :: ops => letters { l with font := some (n, s) } st p ops
  | l, st, p, .Tc v :: ops => letters { l with spacing := v } st p ops
  | l, st, p, .fillColour c :: ops => letters { l with fill := c } st p ops
  | l, st, _, .BT :: ops => letters l st .begun ops
  | l, st, _, .ET :: ops => letters l st .away ops
  | l, st, .begun, .Td x y :: ops => letters l st (.put x y) ops
  | l, st, _, .Td _ _ :: ops => letters l st .away ops
  | l, st, p, .TJ items :: ops => spell l p.place items ++ letters l st .away ops
  | l, st, p, _ :: ops => letters l st p ops

end Verif.Viewer

namespace Verif.Typeset
open Viewer ContentReader

/-! ### What the caller asks for -/

/-- The text colour: that of the last SetTextColor (of 255) or SetTextColorCMYK (in percent). -/
def inkAfter (col : Option Paint.Colour) : Call → Option Paint.Colour
  | .other (.plain (.setTextColour (.rgb r g b))) => some (.rgb (r / 255) (g / 255) (b / 255))
  | .other (.plain (.setTextColour (.cmyk c m y k))) => some (.cmyk (c / 100) (m / 100) (y / 100) (k / 100))
  | _ => col

/-- A character to be drawn: font, size, character spacing (in the unit of the document) and text colour chosen for it. -/
structure Ink where
  wish : Wish
  size : ℚ
  spacing : ℚ
  colour : Option Paint.Colour

/-- The characters written on page `k` (`n` pages are there), with what was chosen at that time. -/
def inked (k : Nat) : (n : Nat) → Setting → Option Paint.Colour → List Call → List Ink
  | _, _, _, [] => []
  | n, x, col, c :: rest =>
    (if n = k then (match x.face with | some f => (texts c).map fun r => ⟨⟨f, r⟩, x.size, x.spacing, col⟩ | none => []) else []) ++
    inked k (if startsPage c then n + 1 else n) (x.after c) (inkAfter col c) rest

/-- A character looks as asked: size and character spacing to half a thousandth of a point; the text colour, if one was set. -/
def LooksAs (cfg : Units.Cfg) (l : Look) (i : Ink) : Prop :=
  (∃ n s, l.font = some (n, s) ∧ Near (1 / 2000) s i.size) ∧ Near (1 / 2000) l.spacing (Units.toPoints cfg i.spacing) ∧
  ∀ col, i.colour = some col → NearColour l.fill col

/-- The caller does not set a shade of grey for text (SetGrayFill): `join_loses_colour_fails`. -/
def NoGrey : Call → Prop
  | .other (.plain (.setGrayFill _)) => False
  | _ => True

/-- The height of the page after a call ... -/
def heightAfter (h : ℚ) : Call → ℚ
  | .other (.addPage x) => x
  | _ => h

/-- ... after a program: that of the last AddPage. -/
def pageHeight (prog : List Call) : ℚ := prog.foldl heightAfter 0

/-- A text of width `w`, ascent `asc` and descent `desc` (negative) that starts at `p` on its baseline stands in the box with top left
corner `o`, `W` wide and `H` high, as the option says: flush right (2), in the middle (16) or flush left; with its line at the bottom
(1), in the middle (32) or at the top. -/
structure Aligned (align : Nat) (o : ℚ × ℚ) (W H w asc desc : ℚ) (p : ℚ × ℚ) : Prop where
  right : align &&& 2 = 2 → p.1 + w = o.1 + W
  centre : align &&& 2 ≠ 2 → align &&& 16 = 16 → p.1 - o.1 = o.1 + W - (p.1 + w)
  left : align &&& 2 ≠ 2 → align &&& 16 ≠ 16 → p.1 = o.1
  bottom : align &&& 1 = 1 → p.2 + desc = o.2 - H
  middle : align &&& 1 ≠ 1 → align &&& 32 = 32 → o.2 - (p.2 + asc) = (p.2 + desc) - (o.2 - H)
  top : align &&& 1 ≠ 1 → align &&& 32 ≠ 32 → p.2 + asc = o.2

/-- Where the text of a call starts, `o` being the place set before: Text at it, on the baseline; Cell, and CellWithOption without a
rectangle, below it by the ascent; CellWithOption with a rectangle in the rectangle. -/
def Placed (cfg : Units.Cfg) (o : ℚ × ℚ) (w asc desc : ℚ) : Call → ℚ × ℚ → Prop
  | .text _, p => p = o
  | .cell _ _, p => p = (o.1, o.2 - asc)
  | .cellWithOption none _ _ _, p => p = (o.1, o.2 - asc)
  | .cellWithOption (some r) _ opt _, p => Aligned opt.align o (r.toPointsT cfg.unit).w (r.toPointsT cfg.unit).h w asc desc p
  | _, _ => False

end Verif.Typeset
