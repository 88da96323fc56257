import Verif.Model.Content
/-
Small specification for histories of drawing calls: which calls go to which page, and when the calls that save and
restore the graphics state are properly nested.
-/
namespace Verif.Drawing
open Content

/-- The calls that act on page `n` (from 0), when the current page is `cur` of `count` pages: AddPage makes a new page the
current one, SetPage changes the current page if that page exists. -/
def callsOn (n : Nat) : (cur count : Nat) → List Call → List Call
  | _, _, [] => []
  | _, count, .addPage _ :: rest => callsOn n count (count + 1) rest
  | cur, count, .setPage k :: rest => callsOn n (if k < count then k else cur) count rest
  | cur, count, c :: rest => if cur = n then c :: callsOn n cur count rest else callsOn n cur count rest

/-- Depth of saved states after the calls, starting at `d`: SaveGraphicsState and Rotate save, RestoreGraphicsState and
RotateReset restore; `none` if something is restored that was not saved. -/
def depth : Nat → List Call → Option Nat
  | d, [] => some d
  | d, .save :: rest => depth (d + 1) rest
  | d, .rotate _ _ _ :: rest => depth (d + 1) rest
  | 0, .restore :: _ => none
  | d + 1, .restore :: rest => depth d rest
  | 0, .rotateReset :: _ => none
  | d + 1, .rotateReset :: rest => depth d rest
  | d, _ :: rest => depth d rest

/-- Everything saved is restored, and nothing else. -/
def Nested (calls : List Call) : Prop := depth 0 calls = some 0

/-- A polygon (drawn or used for clipping) has at least one point. -/
def HasPoints : Call → Prop
  | .polygon pts _ => pts ≠ []
  | .clipPolygon pts => pts ≠ []
  | _ => True

/-! ### What text calls draw -/

/-- The glyphs painted, in order, each with the graphics state (font, size, character spacing, colour, transparency,
transformation, clipping) it is painted with; positions are left out. -/
def glyphs (l : List Paint.Mark) : List (Nat × Paint.GState) :=
  l.filterMap fun | .glyph c _ g => some (c, g) | _ => none

/-- What the user has chosen for text: font, size, character spacing, colour. -/
structure Style where
  font : Nat
  size : ℚ
  /-- in points -/
  spacing : ℚ
  colour : Option Paint.Colour
  deriving DecidableEq

/-- The style after a call. -/
def Style.after (cfg : Units.Cfg) (s : Style) : Call → Style
  | .setFont f _ size => { s with font := f, size := size }
  | .setFontSize size => { s with size := size }
  | .setCharSpacing v => { s with spacing := Units.toPoints cfg v }
  | .setTextColour (.rgb r g b) => { s with colour := some (.rgb (r / 255) (g / 255) (b / 255)) }
  | .setTextColour (.cmyk c m y k) => { s with colour := some (.cmyk (c / 100) (m / 100) (y / 100) (k / 100)) }
  | _ => s

/-- The text a call draws. -/
def written : Call → List Nat
  | .text t | .cell _ t | .cellWithOption _ t _ _ => t
  | _ => []

/-- What the calls ask to be drawn on page `n`, in order: the glyph of every character the current font has a glyph for,
with the style current at the call.  (`cur`, `count`: current page, number of pages.) -/
def drawn (e : Env) (n : Nat) : Style → (cur count : Nat) → List Call → List (Nat × Style)
  | _, _, _, [] => []
  | st, _, count, .addPage _ :: rest => drawn e n st count (count + 1) rest
  | st, cur, count, .setPage k :: rest => drawn e n st (if k < count then k else cur) count rest
  | st, cur, count, c :: rest =>
    (if cur = n then ((written c).filterMap (e.fonts (st.font + 1)).run.map.val).map (·, st) else []) ++
      drawn e n (st.after e.cfg c) cur count rest

/-- A painted glyph has the style: code, font (resource name `/F<font+1>`), size and character spacing. -/
def InStyle (painted : Nat × Paint.GState) (asked : Nat × Style) : Prop :=
  painted.1 = asked.1 ∧ painted.2.font = some (asked.2.font + 1, asked.2.size) ∧
  painted.2.charSpace = asked.2.spacing

/-- … and the text colour, if one has been set. -/
def InColour (painted : Nat × Paint.GState) (asked : Nat × Style) : Prop :=
  ∀ c, asked.2.colour = some c → painted.2.fill = c

/-- Where the text of a text object begins: the operands of its `Td`. -/
def textStart (ops : List Paint.Op) : Option (ℚ × ℚ) := ops.findSome? fun | .Td x y => some (x, y) | _ => none

/-- Positions of the glyphs painted. -/
def positions (l : List Paint.Mark) : List (ℚ × ℚ) := l.filterMap fun | .glyph _ p _ => some p | _ => none

/-- The character number `k` of the text is a space between words: something other than a space comes before and after. -/
def interior (text : List Nat) (k : Nat) : Bool :=
  text[k]? == some 32 && (text.take k).any (· ≠ 32) && (text.drop (k + 1)).any (· ≠ 32)

/-- Number of spaces between words among the first `k` characters. -/
def interiorBefore (text : List Nat) (k : Nat) : Nat := (List.range k).countP (interior text)

/-- A text call on its own: its text always becomes a text object of its own. -/
def addAlone (e : Env) (s : St) (t : TextItem) (text : List Nat) : Option St :=
  (extend e t text).map fun c =>
    { s with
      pages := s.pages.modify s.page (· ++ [.text c])
      cur := { s.cur with
        x := if c.opt.float == 0 || has c.opt.float right || !c.isCell then c.x + c.cellWidth else s.cur.x
        y := if has c.opt.float bottom then c.y + c.cellHeight else s.cur.y } }

/-- The item a text call asks for. -/
def asked (e : Env) (s : St) : Call → Option (TextItem × List Nat)
  | .text t => some (newText s.cur false none {}, t)
  | .cell r t => some (newText s.cur true (rectPoints e r) { align := 8 ||| 4, float := 2 }, t)
  | .cellWithOption r t opt tr =>
    some (newText s.cur true (rectPoints e r) { opt with ext := opt.ext ++ transOf s tr }, t)
  | _ => none

/-- The library without joining text. -/
def stepAlone (e : Env) (s : St) (c : Call) : Option St :=
  match asked e s c with
  | some (t, text) => addAlone e s t text
  | none => step e s c

def stepsAlone (e : Env) : St → List Call → Option St
  | s, [] => some s
  | s, c :: rest => (stepAlone e s c).bind fun s' => stepsAlone e s' rest

/-- Whenever text is joined to text that is already there, both are to be drawn with the same transparency and in the same
colour mode (SetTextColor or SetGrayFill). -/
def JoinsAgree (e : Env) : St → List Call → Prop
  | _, [] => True
  | s, c :: rest =>
    (∀ t text t', asked e s c = some (t, text) → joinTarget (s.pages.getD s.page []) t = some t' →
      t'.opt.ext = t.opt.ext ∧ t'.inColour = t.inColour) ∧
    ∀ s', step e s c = some s' → JoinsAgree e s' rest

/-- Calls that leave colour mode and transparency of text alone. -/
def Plain : Call → Prop
  | .setGrayFill _ => False
  | .setTransparency n => n = none
  | .cellWithOption _ _ opt tr => opt.ext = [] ∧ tr.getD none = none
  | _ => True

end Verif.Drawing
