import Verif.Model.MultiCell
import Verif.Model.Table
import Verif.Model.TypesetMeasure
/-
Programs with the calls that write several lines - MultiCell, MultiCellWithOption, DrawTable - and with headers and footers, in terms
of the calls of Model/Typeset.lean they make.  (Model/MultiCell.lean and Model/Table.lean say where the lines are put when the
characters are in the font already; here the text is what the caller gives, and every measurement adds characters to the font.)

Simplifications:
* a header or footer function is what it writes on each page, given the number of the page; it adds no page;
* a table's font names are numbers, as for SetFont;
* `MultiCellWithOption` of an empty text with a transparency of its own is left out (it registers the transparency, then fails).
-/
namespace Verif.Layout
open Content (BreakOption CellOption)
open Units (fromPoints)

/-- The library's state, with the calls that led to it and what they drew. -/
structure Log where
  s : Typeset.St
  calls : List Typeset.Call := []
  drawn : List Program.Call := []

/-- One call.  `none`: a panic. -/
def Log.act (base : Content.Env) (l : Log) (c : Typeset.Call) : Option Log :=
  (Typeset.step base l.s c).map fun p => ⟨p.1, l.calls ++ [c], l.drawn ++ p.2.toList⟩

def Log.acts (base : Content.Env) : Log → List Typeset.Call → Option Log
  | l, [] => some l
  | l, c :: rest => (l.act base c).bind fun l' => l'.acts base rest

/-- `MeasureTextWidth` (gopdf.go 1909-1921). -/
def Log.measure (base : Content.Env) (l : Log) (t : List Nat) : Option (ℚ × Log) :=
  (l.s.measureWidth base t).bind fun w => (l.act base (.measure t)).map fun l' => (w, l')

/-! ### MultiCell -/

/-- Draw one line and go to the next one (gopdf.go 1191-1193, 1201-1203). -/
def lineAndBreak (base : Content.Env) (l : Log) (w lh x : ℚ) (line : List Nat) : Option Log :=
  l.acts base [.cell (some { w := w, h := lh }) line, .other (.plain (.br lh)), .other (.plain (.setX x))]

/-- The loop of `MultiCell` (gopdf.go 1183-1205).  `rest` is what is left of the text, so `i == length-1` is `rest = [v]`. -/
def multiCellLoop (base : Content.Env) (r : Units.Rect) (lh x : ℚ) : Log → List Nat → ℚ → List Nat → Option Log
  | l, _, _, [] => some l
  | l, line, total, v :: rest =>
    if total + lh > r.h then some l
    else
      (l.measure base line).bind fun p =>
      (p.2.measure base [v]).bind fun q =>
      (if p.1 + q.1 > r.w then lineAndBreak base q.2 r.w lh x line else some q.2).bind fun l1 =>
      if rest = [] then lineAndBreak base l1 r.w lh x ((if p.1 + q.1 > r.w then [] else line) ++ [v])
      else multiCellLoop base r lh x l1 ((if p.1 + q.1 > r.w then [] else line) ++ [v]) (if p.1 + q.1 > r.w then total + lh else total) rest

/-- `MultiCell` (gopdf.go 1166-1207): the loop goes over the text `AddChars` returned. -/
def multiCell (base : Content.Env) (l : Log) (r : Units.Rect) (t : List Nat) : Option Log :=
  (l.s.measureHeight base t).bind fun lh =>
  (l.s.addChars t).bind fun p =>
  (l.act base (.measure t)).bind fun l1 => multiCellLoop base r lh (fromPoints base.cfg l.s.prog.content.cur.x) l1 [] 0 p.2

/-- The loop of `IsFitMultiCell` (gopdf.go 1227-1244) and the test after it (1246-1251). -/
def fitLoop (base : Content.Env) (r : Units.Rect) (lh : ℚ) : Log → List Nat → ℚ → List Nat → Option (Bool × Log)
  | l, _, total, [] => some (decide (¬ total > r.h), l)
  | l, line, total, v :: rest =>
    if total + lh > r.h then some (false, l)
    else
      (l.measure base line).bind fun p =>
      (p.2.measure base [v]).bind fun q =>
      fitLoop base r lh q.2 ((if p.1 + q.1 > r.w then [] else line) ++ [v])
        ((if p.1 + q.1 > r.w then total + lh else total) + (if rest = [] then lh else 0)) rest

/-- `IsFitMultiCell` (gopdf.go 1210-1252): its first result. -/
def isFit (base : Content.Env) (l : Log) (r : Units.Rect) (t : List Nat) : Option (Bool × Log) :=
  (l.s.measureHeight base t).bind fun lh =>
  (l.s.addChars t).bind fun p =>
  (l.act base (.measure t)).bind fun l1 => fitLoop base r lh l1 [] 0 p.2

/-! ### MultiCellWithOption -/

/-- The two comparisons of one pass of the loop (gopdf.go 1368-1379, 1393-1395), with what was measured. -/
def pass (b : BreakOption) (w sw measured : ℚ) : Split.Cfg :=
  ⟨b.mode, b.indicator, b.separator, fun _ _ => decide (measured > w), fun _ _ => decide (measured + sw ≤ w)⟩

/-- The loop of `SplitTextWithOption` (gopdf.go 1358-1397), at most `n` times; `sw` is the width of the separator. -/
def splitLoop (base : Content.Env) (w sw : ℚ) (b : BreakOption) (text : List Nat) : Nat → Log → Split.St → Option (Log × List (List Nat))
  | 0, _, _ => none
  | n + 1, l, t =>
    match text[t.i]? with
    | none => some (l, t.out)
    | some r =>
      (l.measure base t.line).bind fun p =>
      (p.2.measure base [r]).bind fun q =>
      match Split.step (pass b w sw (p.1 + q.1)) text t with
      | .running t' => splitLoop base w sw b text n q.2 t'
      | .finished ls => some (q.2, ls)
      | .bad => none

/-- `SplitTextWithOption` (gopdf.go 1340-1399) of a text that is not empty. -/
def splitText (base : Content.Env) (n : Nat) (l : Log) (text : List Nat) (w : ℚ) (b : BreakOption) : Option (Log × List (List Nat)) :=
  (l.measure base b.separator).bind fun p => splitLoop base w p.1 b text n p.2 {}

/-- The calls of the loop in `MultiCellWithOption` (gopdf.go 1312-1319).  The list `[0]` marks that the transparency is in the
option already (see `Program.contentCall`). -/
def optionCalls (w h lh x : ℚ) (opt : CellOption) (tr : Option Doc.Tr) : List (List Nat) → List Typeset.Call
  | [] => []
  | l :: rest =>
    [.cellWithOption (some { w := w, h := h }) l { opt with align := Content.lineAlign opt.align rest.isEmpty, ext := [0] } tr,
      .other (.plain (.br lh)), .other (.plain (.setX x))] ++ optionCalls w h lh x opt tr rest

/-- `MultiCellWithOption` (gopdf.go 1271-1322).  The lines are those of the text as given.  An empty text is an error. -/
def multiCellOpt (base : Content.Env) (n : Nat) (l : Log) (r : Units.Rect) (t : List Nat) (opt : CellOption) (b : BreakOption)
    (tr : Option Doc.Tr) : Option Log :=
  (l.s.measureHeight base t).bind fun lh =>
  (l.act base (.measure t)).bind fun l1 =>
  if t = [] then if tr = none then some l1 else none
  else (splitText base n l1 t r.w b).bind fun p =>
    p.1.acts base (optionCalls r.w (Content.startHeight r.h lh p.2.length) lh (fromPoints base.cfg l.s.prog.content.cur.x) opt tr p.2)

/-! ### Tables -/

/-- The calls of table.go, as calls of a program. -/
def ofTable : Content.Call → Typeset.Call
  | .line x1 y1 x2 y2 => .other (.line x1 y1 x2 y2)
  | .rectUpperOpt x y w h st _ => .other (.rectUpperOpt x y w h st none)
  | .setFont f st size => .other (.setFont f st size)
  | c => .other (.plain c)

/-- `drawCell` (table.go 260-314). -/
def drawCell (base : Content.Env) (n : Nat) (t : Table.Table) (l : Log) (c : Table.Cell) : Option Log :=
  (l.acts base ((Table.cellCalls t c).map ofTable)).bind fun l1 =>
    multiCellOpt base n l1 { w := c.width - 2 * t.padding, h := c.height - 2 * t.padding } c.content { align := Table.alignBits c.align }
      { mode := .indicator, indicator := 32 } none

def drawCells (base : Content.Env) (n : Nat) (t : Table.Table) : Log → List Table.Cell → Option Log
  | l, [] => some l
  | l, c :: rest => (drawCell base n t l c).bind fun l' => drawCells base n t l' rest

/-- `DrawTable` (table.go 162-236). -/
def drawTable (base : Content.Env) (n : Nat) (l : Log) (t : Table.Table) : Option Log :=
  (Table.cells t).bind fun cs => (drawCells base n t l cs).bind fun l1 => l1.acts base ((Table.outlineCalls t).map ofTable)

/-! ### Programs -/

/-- What may be written on a page. -/
inductive Block where
  /-- any other call, but no new page -/
  | basic (c : Typeset.Call)
  | multiCell (r : Units.Rect) (t : List Nat)
  /-- `if ok, _, _ := pdf.IsFitMultiCell(r, t); ok { pdf.MultiCell(r, t) }` -/
  | ifFits (r : Units.Rect) (t : List Nat)
  | multiCellOpt (r : Units.Rect) (t : List Nat) (opt : CellOption) (b : BreakOption) (tr : Option Doc.Tr)
  | table (t : Table.Table)

/-- A block may not add a page (AddPage calls the header function). -/
def addsPage : Typeset.Call → Bool
  | .other k => Program.isPage k
  | _ => false

/-- Loops are made at most `n` times in one call. -/
def Block.run (base : Content.Env) (n : Nat) (l : Log) : Block → Option Log
  | .basic c => if addsPage c then none else l.act base c
  | .multiCell r t => Layout.multiCell base l r t
  | .ifFits r t => (isFit base l r t).bind fun p => if p.1 then Layout.multiCell base p.2 r t else some p.2
  | .multiCellOpt r t opt b tr => Layout.multiCellOpt base n l r t opt b tr
  | .table t => drawTable base n l t

def blocks (base : Content.Env) (n : Nat) : Log → List Block → Option Log
  | l, [] => some l
  | l, b :: rest => (b.run base n l).bind fun l' => blocks base n l' rest

inductive Call where
  | block (b : Block)
  /-- AddPage, AddPageWithOption -/
  | addPage (height : ℚ)
  | addHeader (f : Nat → List Block)
  | addFooter (f : Nat → List Block)

/-- The header and footer functions (gopdf.go 861-868), and the number of pages. -/
structure St where
  log : Log
  header : Nat → List Block := fun _ => []
  footer : Nat → List Block := fun _ => []
  pages : Nat := 0

/-- `resetCurrXY` (gopdf.go 2193-2196): as Br(0) and SetY, it does not count as a setting of X. -/
def reset (base : Content.Env) (l : Log) : Option Log :=
  l.acts base [.other (.plain (.br 0)), .other (.plain (.setY (fromPoints base.cfg l.s.prog.content.marginTop)))]

/-- One call; AddPage is gopdf.go 806-849. -/
def step (base : Content.Env) (n : Nat) (s : St) : Call → Option St
  | .block b => (b.run base n s.log).map fun l => { s with log := l }
  | .addPage h =>
    (s.log.act base (.other (.addPage h))).bind fun l1 =>
    (blocks base n l1 (s.header (s.pages + 1))).bind fun l2 =>
    (reset base l2).bind fun l3 =>
    (blocks base n l3 (s.footer (s.pages + 1))).bind fun l4 =>
    (reset base l4).map fun l5 => { s with log := l5, pages := s.pages + 1 }
  | .addHeader f => some { s with header := f }
  | .addFooter f => some { s with footer := f }

def steps (base : Content.Env) (n : Nat) : St → List Call → Option St
  | s, [] => some s
  | s, c :: rest => (step base n s c).bind fun s' => steps base n s' rest

def start (prot : Bool) (marginLeft marginTop : ℚ) : St := { log := ⟨Typeset.start prot marginLeft marginTop, [], []⟩ }

end Verif.Layout
