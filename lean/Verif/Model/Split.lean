/-
Model of text splitting: gopdf.go 1324-1399 (`SplitText`, `SplitTextWithWordWrap`, `SplitTextWithOption`),
1478-1518 (`performIndicatorSensitiveLineBreak`, `performStrictLineBreak`, `breakIndicatorIndex`) and break_option.go.

Widths: the code only compares `lineWidth+runeWidth > width` and `lineWidth+runeWidth+separatorWidth <= width`, where
the widths are functions of the current line and rune.  The two comparisons are arbitrary Boolean functions of
line and rune here, so float64 behaviour is covered exactly.  Measuring is assumed not to fail
(`MeasureTextWidth` error returns are not modelled).
-/
namespace Verif.Split

/-- Text as Unicode code points (Go `[]rune`). -/
abbrev Text := List Nat

/-- `'\n'`. -/
abbrev nl : Nat := 10

/-- `BreakMode` (break_option.go 4-16). -/
inductive Mode where
  | strict
  | indicator
deriving DecidableEq

/-- `BreakOption` (break_option.go 28-35) together with the width comparisons of the call. -/
structure Cfg where
  mode : Mode := .strict
  indicator : Nat := 0
  separator : Text := []
  /-- `lineWidth+runeWidth > width` -/
  exceeds : Text → Nat → Bool
  /-- `lineWidth+runeWidth+separatorWidth <= width` -/
  sepFits : Text → Nat → Bool := fun _ _ => false

/-- `HasSeparator` (break_option.go 37-39). -/
def Cfg.hasSep (c : Cfg) : Bool := !c.separator.isEmpty

/-- Loop variables of `SplitTextWithOption` (gopdf.go 1345-1358). -/
structure St where
  i : Nat := 0
  line : Text := []
  out : List Text := []
  sepIdx : Nat := 0
deriving DecidableEq

/-- `breakIndicatorIndex` (gopdf.go 1511-1518): the last index `> 0` holding the indicator. -/
def breakIndicatorIndexAux (text : Text) (bi : Nat) : Nat → Option Nat
  | 0 => none
  | i + 1 => if text[i + 1]? = some bi then some (i + 1) else breakIndicatorIndexAux text bi i

def breakIndicatorIndex (text : Text) (bi : Nat) : Option Nat :=
  breakIndicatorIndexAux text bi (text.length - 1)

/-- Outcome of one loop iteration. `bad` is a slice bound outside `0..len(lineText)`: a negative bound panics in Go
(a bound above the length would read stale memory; it is not distinguished here). -/
inductive Res where
  | running (s : St)
  | finished (lines : List Text)
  | bad
deriving DecidableEq

/-- `performStrictLineBreak` (gopdf.go 1491-1506) followed by the loop's `i++`. -/
def strictBreak (c : Cfg) (s : St) : Res :=
  if c.hasSep then
    let keep : Int := (s.line.length : Int) - ((s.i : Int) - (s.sepIdx : Int))
    if keep < 0 ∨ (s.line.length : Int) < keep then .bad
    else .running { s with
      out := s.out ++ [s.line.take keep.toNat ++ c.separator]
      line := []
      i := s.sepIdx }
  else .running { s with out := s.out ++ [s.line], line := [] }

/-- One iteration of the loop in `SplitTextWithOption` (gopdf.go 1358-1397), including `i++`. -/
def step (c : Cfg) (text : Text) (s : St) : Res :=
  match text[s.i]? with
  | none => .finished s.out
  | some r =>
    if c.exceeds s.line r ∧ r ≠ nl then
      match c.mode with
      | .strict => strictBreak c s
      | .indicator =>
        -- `performIndicatorSensitiveLineBreak` (gopdf.go 1478-1489)
        match breakIndicatorIndex s.line c.indicator with
        | some b =>
          let diff := s.line.length - b
          .running { s with out := s.out ++ [s.line.take b], line := [], i := s.i - diff + 1 }
        | none => strictBreak c s
    else if r = nl then
      .running { s with out := s.out ++ [s.line], line := [], i := s.i + 1 }
    else
      .running { s with
        out := if s.i = text.length - 1 then s.out ++ [s.line ++ [r]] else s.out
        sepIdx := if c.hasSep && c.sepFits s.line r then s.i else s.sepIdx
        line := s.line ++ [r]
        i := s.i + 1 }

/-- At most `n` iterations. -/
def run (c : Cfg) (text : Text) : Nat → Res → Res
  | n + 1, .running s => run c text n (step c text s)
  | _, r => r

/-- `SplitTextWithOption` on a non-empty text returns `lines` (an empty text is `ErrEmptyString`, gopdf.go 1348). -/
def Returns (c : Cfg) (text : Text) (lines : List Text) : Prop :=
  text ≠ [] ∧ ∃ n, run c text n (.running {}) = .finished lines

/-- The call never returns and never panics: it loops forever (appending lines: memory grows without bound). -/
def Diverges (c : Cfg) (text : Text) : Prop :=
  text ≠ [] ∧ ∀ n, ∃ s, run c text n (.running {}) = .running s

/-- The call panics. -/
def Panics (c : Cfg) (text : Text) : Prop :=
  text ≠ [] ∧ ∃ n, run c text n (.running {}) = .bad

end Verif.Split
