import Verif.Model.Measure
import Verif.Model.Split
/-
Text over several lines (gopdf.go 1165-1321).  As in Model/Content.lean the text is what `AddChars` returned (one rune for one
rune), and `none` is a panic in the font tables.  Errors of the calls made inside are ignored by the code as well.
-/
namespace Verif.Content
open Units (Cfg toPoints fromPoints)

/-- Draw one line and go to the next one (gopdf.go 1191-1193, 1201-1203). -/
def lineAndBreak (e : Env) (s : St) (w lh x : ℚ) (line : List Nat) : Option St :=
  steps e s [.cell (some { w := w, h := lh }) line, .br lh, .setX x]

/-- The loop of `MultiCell` (gopdf.go 1183-1205).  `rest` is what is left of the text, so `i == length-1` is `rest = [v]`. -/
def multiCellLoop (e : Env) (r : Units.Rect) (lh x : ℚ) : St → List Nat → ℚ → List Nat → Option St
  | s, _, _, [] => some s
  | s, line, total, v :: rest =>
    if total + lh > r.h then some s
    else
      (measureTextWidth e s.cur line).bind fun lw =>
      (measureTextWidth e s.cur [v]).bind fun rw =>
      let brk := decide (lw + rw > r.w)
      (if brk then lineAndBreak e s r.w lh x line else some s).bind fun s1 =>
      let line1 := (if brk then [] else line) ++ [v]
      let total1 := if brk then total + lh else total
      if rest = [] then lineAndBreak e s1 r.w lh x line1
      else multiCellLoop e r lh x s1 line1 total1 rest

/-- `MultiCell` (gopdf.go 1166-1207). -/
def multiCell (e : Env) (s : St) (r : Units.Rect) (text : List Nat) : Option St :=
  (measureCellHeight e s.cur text).bind fun lh => multiCellLoop e r lh (fromPoints e.cfg s.cur.x) s [] 0 text

/-- The loop of `IsFitMultiCell` (gopdf.go 1227-1244) and the test after it (1246-1251). -/
def fitLoop (e : Env) (c : Cur) (r : Units.Rect) (lh : ℚ) : List Nat → ℚ → List Nat → Option (Bool × ℚ)
  | _, total, [] => some (decide (¬ total > r.h), total)
  | line, total, v :: rest =>
    if total + lh > r.h then some (false, total)
    else
      (measureTextWidth e c line).bind fun lw =>
      (measureTextWidth e c [v]).bind fun rw =>
      let brk := decide (lw + rw > r.w)
      let line1 := (if brk then [] else line) ++ [v]
      let total1 := if brk then total + lh else total
      fitLoop e c r lh line1 (if rest = [] then total1 + lh else total1) rest

/-- `IsFitMultiCell` (gopdf.go 1210-1252): whether it fits, and the height. -/
def isFitMultiCell (e : Env) (c : Cur) (r : Units.Rect) (text : List Nat) : Option (Bool × ℚ) :=
  (measureCellHeight e c text).bind fun lh => fitLoop e c r lh [] 0 text

/-- The loop of `IsFitMultiCellWithNewline` (gopdf.go 1259-1265). -/
def fitNewlineLoop (e : Env) (c : Cur) (w : ℚ) : (h : ℚ) → List (List Nat) → Option (Bool × ℚ)
  | h, [] => some (true, h)
  | h, p :: rest =>
    (isFitMultiCell e c { w := w, h := h } p).bind fun o =>
      if o.1 then fitNewlineLoop e c w (h - o.2) rest else some (false, 0)

/-- `strings.Split(text, "\n")`. -/
def splitNewlines : List Nat → List (List Nat)
  | [] => [[]]
  | c :: rest => if c = 10 then [] :: splitNewlines rest
    else match splitNewlines rest with
      | [] => [[c]]
      | l :: ls => (c :: l) :: ls

/-- `IsFitMultiCellWithNewline` (gopdf.go 1255-1268). -/
def isFitMultiCellWithNewline (e : Env) (c : Cur) (r : Units.Rect) (text : List Nat) : Option (Bool × ℚ) :=
  (fitNewlineLoop e c r.w r.h (splitNewlines text)).map fun o => (o.1, if o.1 then r.h - o.2 else 0)

/-- `lineAlign` (cache_content_text.go 132-137); clearing the bit is subtracting it when it is set. -/
def lineAlign (align : Nat) (last : Bool) : Nat :=
  if last && has align justify then (align - justify) ||| left else align

/-- `BreakOption` (break_option.go 28-35). -/
structure BreakOption where
  mode : Split.Mode := .strict
  indicator : Nat := 0
  separator : List Nat := []

/-- The comparisons `SplitTextWithOption` makes (gopdf.go 1352-1397) for the current font.  A panic while measuring is not
represented: the width is then 0. -/
def splitCfg (e : Env) (c : Cur) (w : ℚ) (b : BreakOption) : Split.Cfg :=
  let m := fun t => (measureTextWidth e c t).getD 0
  { mode := b.mode, indicator := b.indicator, separator := b.separator
    exceeds := fun l r => decide (m l + m [r] > w)
    sepFits := fun l r => decide (m l + m [r] + m b.separator ≤ w) }

/-- The height of the cells (gopdf.go 1303-1310). -/
def startHeight (h lh : ℚ) (l : Nat) : ℚ :=
  if l > 1 then h - (lh + 3 / 2) * ((l / 2 + l % 2 : Nat) : ℚ) else h

/-- The calls of the loop in `MultiCellWithOption` (gopdf.go 1312-1319). -/
def optionCalls (w h lh x : ℚ) (opt : CellOption) (trans : Option (Option Nat)) : List (List Nat) → List Call
  | [] => []
  | l :: rest =>
    [.cellWithOption (some { w := w, h := h }) l { opt with align := lineAlign opt.align rest.isEmpty } trans, .br lh, .setX x] ++
      optionCalls w h lh x opt trans rest

/-- `MultiCellWithOption` (gopdf.go 1271-1322) ends in the state `s'`.  The transparency is looked up here and once more by
each cell, so its dictionary is in the list twice.  (The relation: the split may not return, see `split_terminates_fails`.) -/
def MultiCellWithOption (e : Env) (s : St) (r : Units.Rect) (text : List Nat) (opt : CellOption) (brk : BreakOption)
    (trans : Option (Option Nat)) (s' : St) : Prop :=
  ∃ lh lines, measureCellHeight e s.cur text = some lh ∧ Split.Returns (splitCfg e s.cur r.w brk) text lines ∧
    steps e s (optionCalls r.w (startHeight r.h lh lines.length) lh (fromPoints e.cfg s.cur.x)
      { opt with ext := opt.ext ++ transOf s trans } trans lines) = some s'

end Verif.Content
