import Verif.Spec.Paint
/-
Independent specification: reading the bytes of a content stream (ISO 32000-1 §7.2 lexical conventions, §7.3 objects,
§7.8.2 content streams: operands come before their operator) into the operators of Spec/Paint.lean.
Only the syntax of numbers, names, hexadecimal strings, arrays of numbers and strings, and the operators of
Spec/Paint.lean are read; anything else is an error.
-/
namespace Verif.ContentReader
open Paint (Op Colour Mat)

/-! ### Tokens -/

inductive Token where
  /-- a run of regular characters: a number or an operator -/
  | word (b : Bytes)
  | name (b : Bytes)
  /-- the digits between `<` and `>` -/
  | hex (b : Bytes)
  | opening
  | closing
  deriving DecidableEq, Repr

/-- White space (table 1). -/
def isWhite (b : UInt8) : Bool := b == 0 || b == 9 || b == 10 || b == 12 || b == 13 || b == 32

/-- Delimiters (table 2): `( ) < > [ ] { } / %`. -/
def isDelim (b : UInt8) : Bool :=
  b == 40 || b == 41 || b == 60 || b == 62 || b == 91 || b == 93 || b == 123 || b == 125 || b == 47 || b == 37

/-- Neither. -/
def isRegular (b : UInt8) : Bool := !isWhite b && !isDelim b

/-- What the tokenizer has begun. -/
inductive Mode where
  | gap
  | word (b : Bytes)
  | name (b : Bytes)
  | hex (b : Bytes)
  deriving DecidableEq, Repr

/-- A byte that ends a word or a name, or comes between tokens. -/
def boundary (b : UInt8) : Option (List Token × Mode) :=
  if isWhite b then some ([], .gap)
  else if b = 91 then some ([.opening], .gap)
  else if b = 93 then some ([.closing], .gap)
  else if b = 60 then some ([], .hex [])
  else if b = 47 then some ([], .name [])
  else none

/-- One byte: the tokens it completes. -/
def feed (m : Mode) (b : UInt8) : Option (List Token × Mode) := match m with
  | .gap => if isRegular b then some ([], .word [b]) else boundary b
  | .word w => if isRegular b then some ([], .word (w ++ [b])) else (boundary b).map fun r => (.word w :: r.1, r.2)
  | .name w => if isRegular b then some ([], .name (w ++ [b])) else (boundary b).map fun r => (.name w :: r.1, r.2)
  | .hex d => if b = 62 then some ([.hex d], .gap) else if (hexVal b).isSome then some ([], .hex (d ++ [b])) else none

def feedAll : Mode → Bytes → Option (List Token × Mode)
  | m, [] => some ([], m)
  | m, b :: bs => (feed m b).bind fun r => (feedAll r.2 bs).map fun r' => (r.1 ++ r'.1, r'.2)

/-- The tokens of a byte string. -/
def tokens (bs : Bytes) : Option (List Token) := (feedAll .gap bs).bind fun r => match r.2 with
  | .gap => some r.1
  | .word w => some (r.1 ++ [.word w])
  | .name w => some (r.1 ++ [.name w])
  | .hex _ => none

/-! ### Objects -/

/-- Digits with an optional decimal point. -/
def magnitude (bs : Bytes) : Option ℚ :=
  let ip := bs.takeWhile isDigit
  match bs.dropWhile isDigit with
  | [] => if ip = [] then none else some (decVal ip)
  | 46 :: f => if f.all isDigit ∧ (ip ≠ [] ∨ f ≠ []) then some (decVal ip + decVal f / 10 ^ f.length) else none
  | _ => none

/-- A number (§7.3.3). -/
def number : Bytes → Option ℚ
  | 45 :: r => (magnitude r).map fun x => -x
  | 43 :: r => magnitude r
  | r => magnitude r

inductive Elem where
  | num (q : ℚ)
  | str (b : Bytes)
  deriving DecidableEq, Repr

inductive Operand where
  | num (q : ℚ)
  | name (b : Bytes)
  | str (b : Bytes)
  | arr (l : List Elem)
  deriving DecidableEq, Repr

/-! ### Operators -/

/-- The number after a prefix, as in `/GS5` or `/I12`. -/
def indexed (p : Bytes) (name : Bytes) : Option Nat :=
  (dropPrefix? p name).bind fun d => if d ≠ [] ∧ d.all isDigit then some (decVal d) else none

/-- Numbers of an array. -/
def nums : List Elem → Option (List ℚ)
  | [] => some []
  | .num q :: r => (nums r).map (q :: ·)
  | .str _ :: _ => none

/-- Elements of the array of `TJ`: two-byte codes, and integers. -/
def shown : List Elem → Option (List TextShow.Item)
  | [] => some []
  | .num q :: r => if q.den = 1 then (shown r).map (.adjust q.num :: ·) else none
  | .str b :: r => (TextShow.codes b).bind fun c => (shown r).map (c ++ ·)

/-- A natural number operand. -/
def nat (q : ℚ) : Option Nat := if q.den = 1 ∧ 0 ≤ q then some q.num.toNat else none

/-- The painting operators. -/
def painting : Bytes → Option Op
  | [83] => some (.paint false .stroke)   -- S
  | [115] => some (.paint true .stroke)   -- s
  | [102] => some (.paint false .fill)    -- f
  | [66] => some (.paint false .both)     -- B
  | [98] => some (.paint true .both)      -- b
  | _ => none

/-- An operator with its operands in order (annex A).  `TD` also sets the leading, which no operator here uses.
`CS` selects a colour space, whose initial colour is the tint 1 in a Separation space (§8.6.6.4); `SCN` with 1 sets
that tint. -/
def operator (w : Bytes) (args : List Operand) : Option (List Op) :=
  match args with
  | [] =>
    if w = lit "q" then some [.q]
    else if w = lit "Q" then some [.Q]
    else if w = lit "h" then some [.h]
    else if w = lit "n" then some [.n]
    else if w = lit "W" then some [.W false]
    else if w = lit "W*" then some [.W true]
    else if w = lit "BT" then some [.BT]
    else if w = lit "ET" then some [.ET]
    else (painting w).map fun o => [o]
  | [.num a] =>
    if w = lit "w" then some [.w a]
    else if w = lit "Tc" then some [.Tc a]
    else if w = lit "J" then (nat a).map fun n => [.J n]
    else if w = lit "j" then (nat a).map fun n => [.j n]
    else if w = lit "g" then some [.fillColour (.gray a)]
    else if w = lit "G" then some [.strokeColour (.gray a)]
    else if w = lit "SCN" then (if a = 1 then some [] else none)
    else none
  | [.num a, .num b] =>
    if w = lit "m" then some [.m (a, b)]
    else if w = lit "l" then some [.l (a, b)]
    else if w = lit "Td" ∨ w = lit "TD" then some [.Td a b]
    else none
  | [.num a, .num b, .num c] =>
    if w = lit "rg" then some [.fillColour (.rgb a b c)]
    else if w = lit "RG" then some [.strokeColour (.rgb a b c)]
    else none
  | [.num a, .num b, .num c, .num d] =>
    if w = lit "re" then some [.re a b c d]
    else if w = lit "k" then some [.fillColour (.cmyk a b c d)]
    else if w = lit "K" then some [.strokeColour (.cmyk a b c d)]
    else none
  | [.num a, .num b, .num c, .num d, .num e, .num f] =>
    if w = lit "cm" then some [.cm ⟨a, b, c, d, e, f⟩]
    else if w = lit "c" then some [.c (a, b) (c, d) (e, f)]
    else none
  | [.name s] =>
    if w = lit "gs" then (indexed (lit "GS") s).map fun n => [.gs n]
    else if w = lit "CS" then (indexed (lit "CS") s).map fun n => [.strokeColour (.named n)]
    else if w = lit "Do" then some [match indexed (lit "I") s with | some n => .image n | none => .template (47 :: s)]
    else none
  | [.name s, .num a] =>
    if w = lit "Tf" then (indexed (lit "F") s).map fun n => [.Tf n a] else none
  | [.arr l] => if w = lit "TJ" then (shown l).map fun i => [.TJ i] else none
  | [.arr l, .num p] => if w = lit "d" then (nums l).map fun a => [.d a p] else none
  | _ => none

/-- Operands read, and the elements of an array that has been opened. -/
structure PState where
  args : List Operand := []
  arr : Option (List Elem) := none
  deriving DecidableEq, Repr

/-- One token. -/
def parse (s : PState) : Token → Option (List Op × PState)
  | .word w => match s.arr, number w with
    | some l, some q => some ([], { s with arr := some (l ++ [.num q]) })
    | some _, none => none
    | none, some q => some ([], { s with args := s.args ++ [.num q] })
    | none, none => (operator w s.args).map fun o => (o, {})
  | .name b => if s.arr.isSome then none else some ([], { s with args := s.args ++ [.name b] })
  | .hex d => (hexDecode d).map fun b => match s.arr with
    | some l => ([], { s with arr := some (l ++ [.str b]) })
    | none => ([], { s with args := s.args ++ [.str b] })
  | .opening => if s.arr.isSome then none else some ([], { s with arr := some [] })
  | .closing => s.arr.map fun l => ([], { args := s.args ++ [.arr l] })

def parseAll : PState → List Token → Option (List Op × PState)
  | s, [] => some ([], s)
  | s, t :: ts => (parse s t).bind fun r => (parseAll r.2 ts).map fun r' => (r.1 ++ r'.1, r'.2)

/-- The operators of a content stream; nothing may be left over. -/
def operators (bs : Bytes) : Option (List Op) :=
  (tokens bs).bind fun ts => (parseAll {} ts).bind fun r => if r.2 = {} then some r.1 else none

/-! ### Rounded operands -/

/-- Differ by at most `d`. -/
def Near (d a b : ℚ) : Prop := |a - b| ≤ d

/-- Two matrices: offsets to half a hundredth; the other entries to half a hundredth in a scaling, to half a
hundred-thousandth in a rotation. -/
def NearMat (m n : Mat) : Prop :=
  Near (1 / 200) m.e n.e ∧ Near (1 / 200) m.f n.f ∧
  ((m.b = 0 ∧ n.b = 0 ∧ m.c = 0 ∧ n.c = 0 ∧ Near (1 / 200) m.a n.a ∧ Near (1 / 200) m.d n.d) ∨
   (Near (1 / 200000) m.a n.a ∧ Near (1 / 200000) m.b n.b ∧ Near (1 / 200000) m.c n.c ∧ Near (1 / 200000) m.d n.d))

/-- Two colours: equal if given in percent of four inks or by name; gray to half a hundredth; red, green and blue to half
a thousandth. -/
def NearColour : Colour → Colour → Prop
  | .gray a, .gray b => Near (1 / 200) a b
  | .rgb a b c, .rgb a' b' c' => Near (1 / 2000) a a' ∧ Near (1 / 2000) b b' ∧ Near (1 / 2000) c c'
  | .cmyk a b c d, .cmyk a' b' c' d' => a = a' ∧ b = b' ∧ c = c' ∧ d = d'
  | .named n, .named m => n = m
  | _, _ => False

/-- Two points. -/
def NearPt (p q : ℚ × ℚ) : Prop := Near (1 / 200) p.1 q.1 ∧ Near (1 / 200) p.2 q.2

/-- The same operator, with operands that are equal or differ by rounding: coordinates, lengths and dashes to half a
hundredth of a point, font sizes and character spacing to half a thousandth; glyph codes, text adjustments, resource
names and numbers are equal. -/
def NearOp : Op → Op → Prop
  | .cm m, .cm n => NearMat m n
  | .w a, .w b => Near (1 / 200) a b
  | .d a p, .d b q => List.Forall₂ (Near (1 / 200)) a b ∧ Near (1 / 200) p q
  | .fillColour c, .fillColour c' => NearColour c c'
  | .strokeColour c, .strokeColour c' => NearColour c c'
  | .m p, .m q => NearPt p q
  | .l p, .l q => NearPt p q
  | .c p q r, .c p' q' r' => NearPt p p' ∧ NearPt q q' ∧ NearPt r r'
  | .re x y w h, .re x' y' w' h' => NearPt (x, y) (x', y') ∧ NearPt (w, h) (w', h')
  | .Td x y, .Td x' y' => NearPt (x, y) (x', y')
  | .Tf n s, .Tf n' s' => n = n' ∧ Near (1 / 2000) s s'
  | .Tc a, .Tc b => Near (1 / 2000) a b
  | a, b => a = b

/-- A name, with its slash, that does not look like an image's (`/I5`). -/
def TemplateName (name : Bytes) : Prop :=
  ∃ n, name = 47 :: n ∧ (∀ b ∈ n, isRegular b = true) ∧ indexed (lit "I") n = none

/-- What a mark is, without the numbers that may have been rounded. -/
inductive MarkKind where
  | glyph (code : Nat)
  | shape (k : Paint.PaintKind) (segments : Nat)
  | image (n : Nat)
  | template (name : List UInt8)
  deriving DecidableEq

def kindOf : Paint.Mark → MarkKind
  | .glyph c _ _ => .glyph c
  | .shape k p _ => .shape k p.length
  | .image n _ => .image n
  | .template s _ => .template s

end Verif.ContentReader
