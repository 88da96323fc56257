import Verif.Model.MultiCell
/-
Tables (table.go).  Fonts are given by number; `none` is no font name or one that is not loaded (the error of `SetFont` is
ignored, table.go 304).  Errors other than "empty string" of `MultiCellWithOption` (transparency that cannot be saved, panics in
the font tables) are not modelled.
-/
namespace Verif.Table
open Content

/-- `RGBColor` (table.go 4-8). -/
structure Rgb where
  r : Nat := 0
  g : Nat := 0
  b : Nat := 0
  deriving DecidableEq, Repr

/-- `BorderStyle` (table.go 11-18). -/
structure Border where
  top : Bool := false
  left : Bool := false
  right : Bool := false
  bottom : Bool := false
  width : ℚ := 0
  colour : Rgb := {}
  deriving DecidableEq, Repr

/-- `CellStyle` (table.go 21-27). -/
structure CellStyle where
  border : Border := {}
  fill : Rgb := {}
  text : Rgb := {}
  font : Option Nat := none
  size : ℚ := 0
  deriving DecidableEq, Repr

/-- `RowCell` (table.go 29-33): `style` is `none` if the table's style is used. -/
structure RowCell where
  content : List Nat
  style : Option CellStyle := none
  deriving DecidableEq, Repr

/-- The alignments `drawCell` tells apart (table.go 293-299). -/
inductive Align where
  | left | center | right
  deriving DecidableEq, Repr

/-- `column` (table.go 78-82). -/
structure Column where
  header : List Nat
  width : ℚ
  align : Align
  deriving DecidableEq, Repr

/-- `tableLayout` (table.go 59-73). -/
structure Table where
  startX : ℚ
  startY : ℚ
  rowHeight : ℚ
  columns : List Column := []
  rows : List (List RowCell) := []
  maxRows : Int
  padding : ℚ := 2
  tableStyle : CellStyle := {}
  headerStyle : CellStyle := {}
  cellStyle : CellStyle := {}

/-- The arguments of `drawCell` (table.go 260-269). -/
structure Cell where
  x : ℚ
  y : ℚ
  width : ℚ
  height : ℚ
  content : List Nat
  align : Align
  header : Bool
  style : CellStyle
  deriving DecidableEq, Repr

/-- The header row (table.go 167-181), and blank rows (212-226), from `x` on. -/
def plainRow (x y h : ℚ) (header : Bool) (style : CellStyle) : List Column → List Cell
  | [] => []
  | c :: rest =>
    ⟨x, y, c.width, h, if header then c.header else [], if header then .center else c.align, header, style⟩ ::
      plainRow (x + c.width) y h header style rest

/-- One row of data (table.go 187-205); `none`: more cells than columns, which panics (table.go 195). -/
def dataRow (t : Table) (y : ℚ) : ℚ → List Column → List RowCell → Option (List Cell)
  | _, _, [] => some []
  | _, [], _ :: _ => none
  | x, c :: cols, cell :: rest =>
    (dataRow t y (x + c.width) cols rest).map
      (⟨x, y, c.width, t.rowHeight, cell.content, c.align, false, cell.style.getD t.cellStyle⟩ :: ·)

/-- The rows of data (table.go 185-207). -/
def dataRows (t : Table) : ℚ → List (List RowCell) → Option (List Cell)
  | _, [] => some []
  | y, row :: rest =>
    (dataRow t y t.startX t.columns row).bind fun a => (dataRows t (y + t.rowHeight) rest).map (a ++ ·)

/-- The blank rows (table.go 210-228): `n` of them. -/
def blankRows (t : Table) : ℚ → Nat → List Cell
  | _, 0 => []
  | y, n + 1 => plainRow t.startX y t.rowHeight false t.cellStyle t.columns ++ blankRows t (y + t.rowHeight) n

/-- The calls of `drawCell` that `DrawTable` makes (table.go 162-228), in order. -/
def cells (t : Table) : Option (List Cell) :=
  (dataRows t (t.startY + t.rowHeight) t.rows).map fun d =>
    plainRow t.startX t.startY t.rowHeight true t.headerStyle t.columns ++ d ++
      blankRows t (t.startY + t.rowHeight + t.rows.length * t.rowHeight) (t.maxRows - t.rows.length).toNat

/-- `drawBorder` (table.go 317-340). -/
def borderCalls (x1 y1 x2 y2 : ℚ) (b : Border) : List Call :=
  if b.width ≤ 0 then []
  else
    [.setLineWidth b.width, .setColour true b.colour.r b.colour.g b.colour.b] ++
      (if b.top then [.line (x1 - b.width / 2) y1 (x2 + b.width / 2) y1] else []) ++
      (if b.bottom then [.line (x1 - b.width / 2) y2 (x2 + b.width / 2) y2] else []) ++
      (if b.left then [.line x1 (y1 - b.width / 2) x1 (y2 + b.width / 2)] else []) ++
      (if b.right then [.line x2 (y1 - b.width / 2) x2 (y2 + b.width / 2)] else [])

/-- `Align | Middle` (table.go 293-299; gopdf.go constants Left 8, Right 2, Center 16, Middle 32). -/
def alignBits : Align → Nat
  | .right => 2 ||| 32
  | .center => 16 ||| 32
  | .left => 8 ||| 32

/-- The background (table.go 271-274). -/
def fillCalls (c : Cell) : List Call :=
  if c.style.fill ≠ {} then
    [.setColour false c.style.fill.r c.style.fill.g c.style.fill.b, .rectUpperOpt c.x c.y c.width c.height .fill none]
  else []

/-- Everything in `drawCell` before the text (table.go 271-305). -/
def cellCalls (t : Table) (c : Cell) : List Call :=
  fillCalls c ++ (if c.header then [] else borderCalls c.x c.y (c.x + c.width) (c.y + c.height) c.style.border) ++
    [.setXY (c.x + t.padding) (c.y + t.padding), .setTextColour (.rgb c.style.text.r c.style.text.g c.style.text.b)] ++
    (match c.style.font with
     | none => []
     | some f => [.setFont f 0 c.style.size])

/-- The text (table.go 308-313): an empty text is the error "empty string", which is ignored. -/
def CellText (e : Env) (t : Table) (c : Cell) (s s' : St) : Prop :=
  if c.content = [] then s' = s
  else MultiCellWithOption e s { w := c.width - 2 * t.padding, h := c.height - 2 * t.padding } c.content { align := alignBits c.align }
    { mode := .indicator, indicator := 32 } none s'

/-- `drawCell` (table.go 260-314) from `s` to `s'`. -/
def DrawCell (e : Env) (t : Table) (c : Cell) (s s' : St) : Prop :=
  ∃ s1, steps e s (cellCalls t c) = some s1 ∧ CellText e t c s1 s'

/-- The cells one after the other. -/
def DrawCells (e : Env) (t : Table) : List Cell → St → St → Prop
  | [], s, s' => s' = s
  | c :: rest, s, s' => ∃ s1, DrawCell e t c s s1 ∧ DrawCells e t rest s1 s'

/-- The right edge (table.go 242-247). -/
def rightEdge : ℚ → List Column → ℚ
  | x, [] => x
  | x, c :: rest => rightEdge (x + c.width) rest

/-- `drawTableAndHeaderBorder` (table.go 239-257). -/
def outlineCalls (t : Table) : List Call :=
  borderCalls t.startX t.startY (rightEdge t.startX t.columns) (t.startY + ((t.maxRows + 1 : Int) : ℚ) * t.rowHeight) t.tableStyle.border ++
    borderCalls t.startX t.startY (rightEdge t.startX t.columns) (t.startY + t.rowHeight) t.headerStyle.border

/-- `DrawTable` (table.go 162-236) from `s` to `s'` (without panic). -/
def DrawTable (e : Env) (t : Table) (s s' : St) : Prop :=
  ∃ cs s1, cells t = some cs ∧ DrawCells e t cs s s1 ∧ steps e s1 (outlineCalls t) = some s'

end Verif.Table
