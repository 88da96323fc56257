import Verif.Model.Table
/-
How a table is put together (table.go 29-159).  A caller may have several tables, and slices of cells that it passes to
`AddStyledRow`; both are numbered in the order they are made.  Strings and styles are values in Go, and cannot be changed once passed.
-/
namespace Verif.TableBuild
open Table (Rgb Border CellStyle RowCell Align Column)

/-- The caller's calls, and what it does with its slices. -/
inductive Op where
  /-- `NewTableLayout` (table.go 86) -/
  | newTable (x y rowHeight : ℚ) (maxRows : Int)
  | addColumn (t : Nat) (header : List Nat) (width : ℚ) (align : List Nat)
  | addRow (t : Nat) (row : List (List Nat))
  /-- `AddStyledRow` with the slice `cells` -/
  | addStyledRow (t cells : Nat)
  | setTableStyle (t : Nat) (s : CellStyle)
  | setHeaderStyle (t : Nat) (s : CellStyle)
  | setCellStyle (t : Nat) (s : CellStyle)
  /-- `[]RowCell{...}` of `NewRowCell`s, in the caller -/
  | make (cells : List RowCell)
  /-- `cells[i] = c`, in the caller -/
  | assign (cells i : Nat) (c : RowCell)

/-- A row of a table (table.go 64): cells of its own, or the caller's slice, which shares its memory. -/
inductive Row where
  | own (cells : List RowCell)
  | shared (slice : Nat)

/-- `column` (table.go 78-82). -/
structure Col where
  header : List Nat
  width : ℚ
  align : List Nat

/-- `tableLayout` (table.go 59-73), without the document and the option for text, which no call changes. -/
structure Layout where
  startX : ℚ
  startY : ℚ
  rowHeight : ℚ
  columns : List Col := []
  rows : List Row := []
  maxRows : Int
  padding : ℚ := 2
  tableStyle : CellStyle
  headerStyle : CellStyle
  cellStyle : CellStyle

/-- `BorderStyle` of the defaults (table.go 101-105, 108-112, 117-121). -/
def thin : Border := { top := true, left := true, right := true, bottom := true, width := 1 / 2, colour := ⟨0, 0, 0⟩ }

/-- `NewTableLayout` (table.go 86-126). -/
def newLayout (x y rowHeight : ℚ) (maxRows : Int) : Layout :=
  { startX := x, startY := y, rowHeight := rowHeight, maxRows := maxRows, padding := 2
    tableStyle := { border := thin }
    headerStyle := { border := thin, fill := ⟨240, 240, 240⟩, text := ⟨0, 0, 0⟩ }
    cellStyle := { border := thin, text := ⟨0, 0, 0⟩ } }

/-- `AddColumn` (table.go 129-131). -/
def Layout.addColumn (l : Layout) (header : List Nat) (width : ℚ) (align : List Nat) : Layout :=
  { l with columns := l.columns ++ [⟨header, width, align⟩] }

/-- `AddRow` (table.go 134-140): the cells use the style of the table. -/
def Layout.addRow (l : Layout) (row : List (List Nat)) : Layout := { l with rows := l.rows ++ [.own (row.map fun c => ⟨c, none⟩)] }

/-- `AddStyledRow` (table.go 144-146). -/
def Layout.addStyledRow (l : Layout) (slice : Nat) : Layout := { l with rows := l.rows ++ [.shared slice] }

/-- `SetTableStyle`, `SetHeaderStyle`, `SetCellStyle` (table.go 149-161). -/
def Layout.setTableStyle (l : Layout) (s : CellStyle) : Layout := { l with tableStyle := s }
def Layout.setHeaderStyle (l : Layout) (s : CellStyle) : Layout := { l with headerStyle := s }
def Layout.setCellStyle (l : Layout) (s : CellStyle) : Layout := { l with cellStyle := s }

/-- The tables and the slices of the caller. -/
structure St where
  tables : List Layout := []
  slices : List (List RowCell) := []

/-- A call on a table that does not exist is not possible (`none`), nor one with a slice that does not. -/
def St.on (s : St) (t : Nat) (f : Layout → Layout) : Option St :=
  if t < s.tables.length then some { s with tables := s.tables.modify t f } else none

def step (s : St) : Op → Option St
  | .newTable x y rowHeight maxRows => some { s with tables := s.tables ++ [newLayout x y rowHeight maxRows] }
  | .addColumn t header width align => s.on t (·.addColumn header width align)
  | .addRow t row => s.on t (·.addRow row)
  | .addStyledRow t cells => if cells < s.slices.length then s.on t (·.addStyledRow cells) else none
  | .setTableStyle t st => s.on t (·.setTableStyle st)
  | .setHeaderStyle t st => s.on t (·.setHeaderStyle st)
  | .setCellStyle t st => s.on t (·.setCellStyle st)
  | .make cells => some { s with slices := s.slices ++ [cells] }
  | .assign cells i c =>
    -- out of range panics
    if i < (s.slices.getD cells []).length then some { s with slices := s.slices.modify cells (·.set i c) } else none

def steps : St → List Op → Option St
  | s, [] => some s
  | s, o :: rest => (step s o).bind fun s' => steps s' rest

/-- The comparisons of `drawCell` (table.go 293-299): with "right" (five bytes), then with "center". -/
def alignOf (align : List Nat) : Align :=
  if align = [114, 105, 103, 104, 116] then .right else if align = [99, 101, 110, 116, 101, 114] then .center else .left

/-- The table that `DrawTable` (table.go 162-236) reads from the layout and the slices; it changes neither. -/
def St.table (s : St) (l : Layout) : Table.Table :=
  { startX := l.startX, startY := l.startY, rowHeight := l.rowHeight, maxRows := l.maxRows, padding := l.padding
    columns := l.columns.map fun c => ⟨c.header, c.width, alignOf c.align⟩
    rows := l.rows.map fun
      | .own cells => cells
      | .shared k => s.slices.getD k []
    tableStyle := l.tableStyle, headerStyle := l.headerStyle, cellStyle := l.cellStyle }

end Verif.TableBuild
