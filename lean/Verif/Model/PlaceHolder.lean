import Verif.Model.Measure
/-
Placeholder text: `PlaceHolderText` (gopdf.go 1400-1435, content_obj.go 101-147, placeholder.go) and `FillInPlaceHoldText`
(gopdf.go 1436-1476), between any other drawing calls (Model/Content.lean).  As there, a text is what `AddChars` makes of it
(here: the text itself, the code draws it without substitutions), and `none` is a panic in the font tables.
-/
namespace Verif.Content
open Units (Cfg toPoints fromPoints)

/-- `placeHolderTextInfo` (placeholder.go 8-15): the content object by the number of its page.  The font object is the one the
item draws with and is not read otherwise. -/
structure PInfo where
  page : Nat
  idx : Nat
  width : ℚ
  size : ℚ
  spacing : ℚ
  deriving DecidableEq, Repr

/-- The document with `placeHolderTexts` (gopdf.go 105): the entries of all names, in the order they were made. -/
structure PSt where
  s : St
  table : List (List UInt8 × PInfo) := []
  deriving DecidableEq, Repr

/-- `gp.placeHolderTexts[name]`. -/
def PSt.infos (p : PSt) (name : List UInt8) : List PInfo := (p.table.filter (·.1 = name)).map (·.2)

/-- The item `appendStreamPlaceHolderText` builds (content_obj.go 118-136). -/
def newPlaceHolder (cur : Cur) : TextItem := { newText cur false none {} with isPlaceHolder := true }

/-- `PlaceHolderText` (gopdf.go 1403-1435, content_obj.go 138-146): the width is converted with `PointsToUnitsVar`. -/
def placeHolder (e : Env) (p : PSt) (name : List UInt8) (width : ℚ) : PSt :=
  let w := fromPoints e.cfg width
  { s := { p.s.add (.text (newPlaceHolder p.s.cur)) with cur := { p.s.cur with x := p.s.cur.x + w } }
    table := p.table ++ [(name, { page := p.s.page, idx := (p.s.pages.getD p.s.page []).length, width := w,
                                  size := p.s.cur.fontSize, spacing := p.s.cur.charSpacing })] }

/-- How far the text is moved (gopdf.go 1466-1472); `==`, not a test of a bit. -/
def fillShift (align : Nat) (diff : ℚ) : ℚ := if align = right then diff else if align = center then diff / 2 else 0

/-- Replacing the text of an item (gopdf.go 1456-1457, 1466-1472).  Any other item is left alone: an error in the code, which does
not happen (`Registered` in Lemmas/Content/PlaceHolder.lean). -/
def fillItem (text : List Nat) (shift : ℚ) : Item → Item
  | .text t => .text { t with text := text, x := t.x + shift }
  | i => i

/-- One placeholder (gopdf.go 1447-1473).  The text is measured with the current font. -/
def fillOne (e : Env) (text : List Nat) (align : Nat) (s : St) (i : PInfo) : Option St :=
  (createContent (e.fonts (s.cur.font + 1)) text i.size i.spacing none).map fun r =>
    { s with pages := s.pages.modify i.page (fun items => items.modify i.idx (fillItem text (fillShift align (i.width - fromPoints e.cfg r.2.2)))) }

/-- The loop (gopdf.go 1447). -/
def fillAll (e : Env) (text : List Nat) (align : Nat) : St → List PInfo → Option St
  | s, [] => some s
  | s, i :: rest => (fillOne e text align s i).bind fun s' => fillAll e text align s' rest

/-- `FillInPlaceHoldText` (gopdf.go 1440-1476); an unknown name is an error that changes nothing (1441-1444). -/
def fillIn (e : Env) (p : PSt) (name : List UInt8) (text : List Nat) (align : Nat) : Option PSt :=
  (fillAll e text align p.s (p.infos name)).map fun s => { p with s := s }

/-- The calls of this file and all others. -/
inductive PCall where
  | draw (c : Call)
  | place (name : List UInt8) (width : ℚ)
  | fill (name : List UInt8) (text : List Nat) (align : Nat)
  deriving DecidableEq, Repr

def pstep (e : Env) (p : PSt) : PCall → Option PSt
  | .draw c => (step e p.s c).map fun s => { p with s := s }
  | .place name w => some (placeHolder e p name w)
  | .fill name text align => fillIn e p name text align

def psteps (e : Env) : PSt → List PCall → Option PSt
  | p, [] => some p
  | p, c :: rest => (pstep e p c).bind fun p' => psteps e p' rest

end Verif.Content
