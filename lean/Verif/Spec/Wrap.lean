import Mathlib.Algebra.Field.Rat
/-
Declarative specification of line wrapping, independent of the loop that computes it.
`exceeds l r` reads "line `l` extended by `r` is wider than allowed".
-/
namespace Verif.Wrap

/-- The height of the cell each of `n` lines, `lh` high, is put in: for one line that of the rectangle; else that is less for every
second line by the height of a line and 1.5. -/
def lineBox (h lh : ℚ) (n : Nat) : ℚ := if n ≤ 1 then h else h - ((n + 1) / 2 : Nat) * (lh + 3 / 2)

/-- Every character of the line fitted when it was placed after its predecessors. -/
def Placed (exceeds : List Nat → Nat → Bool) (l : List Nat) : Prop :=
  ∀ pre r post, l = pre ++ r :: post → exceeds pre r = false

/-- What the caller asked for. -/
structure Opts where
  exceeds : List Nat → Nat → Bool
  /-- `some ind`: prefer breaking at the character `ind` -/
  indicator : Option Nat
  /-- appended to a line that is broken inside a word; empty for none -/
  separator : List Nat
  sepFits : List Nat → Nat → Bool

/-- `Wraps o lines text`: `lines` is a legal wrapping of `text` (code points; 10 is the newline).
A line ends only (1) with the text, (2) at a newline, which disappears, (3) because the next character does not fit,
without losing anything, (4) at an indicator, which disappears, because a later character of the line does not fit,
(5) with an appended separator because a later character does not fit. -/
inductive Wraps (o : Opts) : List (List Nat) → List Nat → Prop
  | last (l) : l ≠ [] → 10 ∉ l → Placed o.exceeds l → Wraps o [l] l
  | lastNl (l) : 10 ∉ l → Placed o.exceeds l → Wraps o [l] (l ++ [10])
  | newline (l ls t) : 10 ∉ l → Placed o.exceeds l → t ≠ [] → Wraps o ls t → Wraps o (l :: ls) (l ++ 10 :: t)
  | soft (l ls r t) : o.separator = [] → 10 ∉ l → Placed o.exceeds l → o.exceeds l r = true → r ≠ 10 →
      (∀ ind, o.indicator = some ind → ∀ k, 0 < k → l[k]? ≠ some ind) →
      Wraps o ls (r :: t) → Wraps o (l :: ls) (l ++ r :: t)
  | word (a b ls ind r t) : o.indicator = some ind → a ≠ [] → ind ∉ b → 10 ∉ a ++ ind :: b →
      Placed o.exceeds (a ++ ind :: b) → o.exceeds (a ++ ind :: b) r = true → r ≠ 10 →
      Wraps o ls (b ++ r :: t) → Wraps o (a :: ls) (a ++ ind :: (b ++ r :: t))
  | hyphen (a b ls r t) : o.separator ≠ [] → 10 ∉ a ++ b → Placed o.exceeds (a ++ b) →
      o.exceeds (a ++ b) r = true → r ≠ 10 →
      (a ≠ [] → o.indicator = none → ∃ q, b.head? = some q ∧ o.sepFits a q = true) →
      Wraps o ls (b ++ r :: t) → Wraps o ((a ++ o.separator) :: ls) (a ++ (b ++ r :: t))

/-- The paragraphs of a text: the pieces between newlines (a final newline opens no further paragraph). -/
def paragraphs : List Nat → List (List Nat)
  | [] => []
  | c :: t =>
    if c = 10 then [] :: paragraphs t
    else match paragraphs t with
      | [] => [[c]]
      | p :: ps => (c :: p) :: ps

end Verif.Wrap
