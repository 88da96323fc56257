import Verif.Spec.Wrap
import Verif.Model.Table
/- Small specification for tables: where the cells are, and what a drawn cell consists of. -/
namespace Verif.TableSpec
open Table Content
open Units (toPoints)

/-- The columns to the left of column `j`, their width. -/
def offset (t : Table) (j : Nat) : ℚ := ((t.columns.take j).map (·.width)).sum
def totalWidth (t : Table) : ℚ := (t.columns.map (·.width)).sum
def column (t : Table) (j : Nat) : Column := t.columns.getD j ⟨[], 0, .left⟩

/-- Row `k` (0 is the header), column `j`. -/
def placed (t : Table) (k j : Nat) (content : List Nat) (align : Align) (header : Bool) (style : CellStyle) : Cell :=
  ⟨t.startX + offset t j, t.startY + k * t.rowHeight, (column t j).width, t.rowHeight, content, align, header, style⟩

def headerCells (t : Table) : List Cell :=
  (List.range t.columns.length).map fun j => placed t 0 j (column t j).header .center true t.headerStyle

def dataCells (t : Table) : List Cell :=
  (t.rows.mapIdx fun k row => row.mapIdx fun j c => placed t (k + 1) j c.content (column t j).align false (c.style.getD t.cellStyle)).flatten

/-- Blank rows fill the table up to its maximum. -/
def blankCells (t : Table) : List Cell :=
  (List.range (t.maxRows - t.rows.length).toNat).flatMap fun b =>
    (List.range t.columns.length).map fun j => placed t (t.rows.length + 1 + b) j [] (column t j).align false t.cellStyle

/-- The point is in the cell; the right and lower edges belong to the next cell. -/
def covers (p : ℚ × ℚ) (c : Cell) : Prop := c.x ≤ p.1 ∧ p.1 < c.x + c.width ∧ c.y ≤ p.2 ∧ p.2 < c.y + c.height
instance (p : ℚ × ℚ) (c : Cell) : Decidable (covers p c) := by unfold covers; infer_instance

/-- The table's area for `n` rows below the header. -/
def inTable (t : Table) (n : Nat) (p : ℚ × ℚ) : Prop :=
  t.startX ≤ p.1 ∧ p.1 < t.startX + totalWidth t ∧ t.startY ≤ p.2 ∧ p.2 < t.startY + (n + 1) * t.rowHeight

/-- The background of a cell: a filled rectangle, unless the colour is black, which stands for no background. -/
def background (e : Env) (ph : ℚ) (ext : Option Nat) (c : Cell) : List Item :=
  if c.style.fill = {} then []
  else [.rgb false c.style.fill.r c.style.fill.g c.style.fill.b,
    .rectangle ph (toPoints e.cfg c.x) (toPoints e.cfg c.y + toPoints e.cfg c.height) (toPoints e.cfg c.width) (toPoints e.cfg c.height)
      .fill ext.toList]

/-- The sides of the rectangle from (x1, y1) to (x2, y2) that are asked for, each longer by half the line's width at both ends. -/
def sides (e : Env) (ph : ℚ) (ext : Option Nat) (x1 y1 x2 y2 : ℚ) (b : Border) : List Item :=
  let seg := fun (a b c d : ℚ) => Item.line ph (toPoints e.cfg a) (toPoints e.cfg b) (toPoints e.cfg c) (toPoints e.cfg d) ext.toList
  let half := b.width / 2
  if b.width ≤ 0 then []
  else [.lineWidth (toPoints e.cfg b.width), .rgb true b.colour.r b.colour.g b.colour.b] ++
    (if b.top then [seg (x1 - half) y1 (x2 + half) y1] else []) ++ (if b.bottom then [seg (x1 - half) y2 (x2 + half) y2] else []) ++
    (if b.left then [seg x1 (y1 - half) x1 (y2 + half)] else []) ++ (if b.right then [seg x2 (y1 - half) x2 (y2 + half)] else [])

/-- The font in which a cell's text is written: its own if it names one, else the one in use before. -/
def fontOf (base : Cur) (c : Cell) : Cur :=
  match c.style.font with
  | none => base
  | some f => { base with font := f, fontSize := c.style.size }

/-- How text is aligned in a cell, in the bits of the library's constants: Right 2, Left 8, Center 16 as the column says, and Middle 32. -/
def bitsOf : Align → Nat
  | .right => 34
  | .center => 48
  | .left => 40

/-- The text of a cell: its lines, broken at spaces to the width inside the padding, one below the other from the padded corner,
each in the cell's alignment, colour and font. -/
def TextDrawn (e : Env) (pad : ℚ) (base : Cur) (c : Cell) (texts : List TextItem) : Prop :=
  if c.content = [] then texts = []
  else ∃ lh : ℚ, measureCellHeight e (fontOf base c) c.content = some lh ∧
    Split.Returns (splitCfg e (fontOf base c) (c.width - 2 * pad) { mode := .indicator, indicator := 32 }) c.content (texts.map (·.text)) ∧
    ∀ (k : Nat) (t : TextItem), texts[k]? = some t → t.isCell = true ∧ t.x = toPoints e.cfg (c.x + pad) ∧
      t.y = toPoints e.cfg (c.y + pad + k * lh) ∧ t.font = (fontOf base c).font + 1 ∧ t.fontSize = (fontOf base c).fontSize ∧
      t.charSpacing = base.charSpacing ∧ t.pageHeight = base.pageHeight ∧
      t.rectangle = some (({ w := c.width - 2 * pad, h := Wrap.lineBox (c.height - 2 * pad) lh texts.length } : Units.Rect).toPointsT e.cfg.unit) ∧
      t.opt.align = bitsOf c.align ∧ t.opt.border = 0 ∧ t.inColour = true ∧
      t.colour = some (.rgb c.style.text.r c.style.text.g c.style.text.b)

/-- What a cell puts on the page: background, border (not for header cells) and text. -/
def CellDrawn (e : Env) (pad : ℚ) (base : Cur) (c : Cell) (items : List Item) : Prop :=
  ∃ texts : List TextItem, TextDrawn e pad base c texts ∧ items = background e base.pageHeight base.ext c ++
    (if c.header then [] else sides e base.pageHeight base.ext c.x c.y (c.x + c.width) (c.y + c.height) c.style.border) ++
      texts.map .text

/-- The cells one after the other; a font named by a cell stays in use for the following ones. -/
def CellsDrawn (e : Env) (pad : ℚ) : Cur → List Cell → List Item → Prop
  | _, [], items => items = []
  | base, c :: rest, items => ∃ a b, items = a ++ b ∧ CellDrawn e pad base c a ∧ CellsDrawn e pad (fontOf base c) rest b

end Verif.TableSpec
