/-
Small specification for Arabic text, independent of the model: what it means that a line of drawn runes (left to right) is a text (in reading
order).  Letters, forms, marks and ligatures after the Unicode data files (UnicodeData.txt, ArabicShaping.txt), for the letters
the library knows; any other rune only has itself.
-/
namespace Verif.ArabicSpec

/-- Two and four presentation forms in the order of the Unicode blocks: isolated, final, initial, medial. -/
def two (c : Nat) : List Nat := [c, c + 1]
def four (c : Nat) : List Nat := [c, c + 1, c + 2, c + 3]

/-- The letters with their presentation forms: four if the letter joins to both sides, two if it only joins to the letter before it, one if
it joins to nothing.  (Alef maksura has only two forms in the block of Arabic, so it counts among the letters that only join to the letter
before; tatweel is its own form; the ligatures of lam and alef are letters too.) -/
def letters : List (Nat × List Nat) :=
  [(0x0621, [0xFE80]), (0x0622, two 0xFE81), (0x0623, two 0xFE83), (0x0624, two 0xFE85), (0x0625, two 0xFE87), (0x0626, four 0xFE89),
   (0x0627, two 0xFE8D), (0x0628, four 0xFE8F), (0x0629, two 0xFE93), (0x062A, four 0xFE95), (0x062B, four 0xFE99), (0x062C, four 0xFE9D),
   (0x062D, four 0xFEA1), (0x062E, four 0xFEA5), (0x062F, two 0xFEA9), (0x0630, two 0xFEAB), (0x0631, two 0xFEAD), (0x0632, two 0xFEAF),
   (0x0633, four 0xFEB1), (0x0634, four 0xFEB5), (0x0635, four 0xFEB9), (0x0636, four 0xFEBD), (0x0637, four 0xFEC1), (0x0638, four 0xFEC5),
   (0x0639, four 0xFEC9), (0x063A, four 0xFECD), (0x0640, [0x0640, 0x0640, 0x0640, 0x0640]), (0x0641, four 0xFED1), (0x0642, four 0xFED5),
   (0x0643, four 0xFED9), (0x0644, four 0xFEDD), (0x0645, four 0xFEE1), (0x0646, four 0xFEE5), (0x0647, four 0xFEE9), (0x0648, two 0xFEED),
   (0x0649, two 0xFEEF), (0x064A, four 0xFEF1), (0x067E, four 0xFB56), (0x0686, four 0xFB7A), (0x0698, two 0xFB8A), (0x06A9, four 0xFB8E),
   (0x06AF, four 0xFB92), (0x06CC, four 0xFBFC), (0xFEF7, two 0xFEF7), (0xFEFB, two 0xFEFB)]

/-- The runes that stand for a letter. -/
def runes (l : Nat × List Nat) : List Nat := l.1 :: l.2

/-- `b` is a form of the letter `r`; runes that are no letters of the table have only themselves. -/
def Form (r b : Nat) : Prop := (∃ l ∈ letters, r ∈ runes l ∧ b ∈ runes l) ∨ (∀ l ∈ letters, r ∉ runes l) ∧ b = r

/-- The marks written over and under letters: U+064B to U+0658, and the superscript alef. -/
def isMark (r : Nat) : Bool := decide (0x064B ≤ r ∧ r ≤ 0x0658 ∨ r = 0x0670)

/-- A mark as drawn: the ligatures U+FC5E to U+FC63 stand for a vowel and shadda. -/
def expandMark (m : Nat) : List Nat := match m with
  | 0xFC5E => [0x064C, 0x0651]
  | 0xFC5F => [0x064D, 0x0651]
  | 0xFC60 => [0x064E, 0x0651]
  | 0xFC61 => [0x064F, 0x0651]
  | 0xFC62 => [0x0650, 0x0651]
  | 0xFC63 => [0x0670, 0x0651]
  | m => [m]

/-- The marks drawn are the marks of the text; they may be in another order and vowels joined with shadda. -/
def MarksDrawn (ms drawn : List Nat) : Prop := (∀ m ∈ ms, isMark m = true) ∧ (drawn.flatMap expandMark).Perm ms

/-- The text does not begin with a mark. -/
def StartsPlain (t : List Nat) : Prop := ∀ m rest, t = m :: rest → isMark m = false

/-- How a letter may be drawn: the letter before (0: none), the letter, the letter after (0: none), what is drawn. -/
abbrev Drawing := Nat → Nat → Nat → Nat → Prop

/-- Only the letter counts. -/
def anyForm : Drawing := fun _ r _ b => Form r b

/-- A text in reading order that follows the letter `prev`, and the letters drawn for it, each with its marks: every letter as
`P` says, lam and alef (or alef with hamza) as `P` says for their ligature, the word Allah by its ligature. -/
inductive Reads (P : Drawing) : Nat → List Nat → List (Nat × List Nat) → Prop where
  | nil (prev : Nat) : Reads P prev [] []
  | letter (prev r b : Nat) (ms drawn rest : List Nat) (cs : List (Nat × List Nat)) (hr : isMark r = false)
      (hf : P prev r (rest.headD 0) b) (hm : MarksDrawn ms drawn) (hs : StartsPlain rest) (h : Reads P r rest cs) :
      Reads P prev (r :: ms ++ rest) ((b, drawn) :: cs)
  | lamAlef (prev a l b : Nat) (ms1 ms2 drawn rest : List Nat) (cs : List (Nat × List Nat))
      (hl : a = 0x0627 ∧ l = 0xFEFB ∨ a = 0x0623 ∧ l = 0xFEF7) (hf : P prev l (rest.headD 0) b)
      (h1 : ∀ m ∈ ms1, isMark m = true) (hm : MarksDrawn (ms1 ++ ms2) drawn) (hs : StartsPlain rest) (h : Reads P a rest cs) :
      Reads P prev (0x0644 :: ms1 ++ a :: ms2 ++ rest) ((b, drawn) :: cs)
  | allah (prev : Nat) (ms drawn rest : List Nat) (cs : List (Nat × List Nat)) (hm : MarksDrawn ms drawn) (hs : StartsPlain rest)
      (h : Reads P 0xFDF2 rest cs) :
      Reads P prev (0x0627 :: 0x0644 :: 0x0644 :: 0x0647 :: ms ++ rest) ((0xFDF2, drawn) :: cs)

/-- A line drawn from right to left: the first letter last, its marks before it. -/
def rightToLeft (cs : List (Nat × List Nat)) : List Nat := cs.reverse.flatMap fun c => c.2 ++ [c.1]

/-! ### Joining -/

/-- The form of a letter when the letter before does (`before`), and when the letter after does (`after`) join to it. -/
def forms (l : Nat × List Nat) (before after : Bool) : List Nat :=
  match l.2, before, after with
  | [_, _, _, medial], true, true => [medial]
  | [_, final, _, _], true, false => [final]
  | [_, _, initial, _], false, true => [initial]
  | [_, final], true, _ => [final]
  | isolated :: _, _, _ => [isolated, l.1]
  | [], _, _ => [l.1]

/-- The letter `c` joins to the one after it; the letter `c` joins to the one before it. -/
def joinsNext (c : Nat) : Bool := letters.any fun l => (runes l).contains c && l.2.length == 4
def joinsPrev (c : Nat) : Bool := letters.any fun l => (runes l).contains c && l.2.length != 1

/-- A letter is drawn in the form its neighbours ask for. -/
def inContext : Drawing := fun prev r next b => ∀ l ∈ letters, r ∈ runes l → b ∈ forms l (joinsNext prev) (joinsPrev next)

/-- What the code gets wrong: after jeh or an alef ligature, before hamza, and for teh marbuta within a word. -/
def misdrawn (prev r next : Nat) : Prop :=
  prev ∈ [0x0698, 0xFB8A, 0xFB8B] ∨ prev ∈ [0xFEFB, 0xFEFC] ∨ prev ∈ [0xFEF7, 0xFEF8] ∨ next ∈ [0x0621, 0xFE80] ∨
    r ∈ [0x0629, 0xFE93, 0xFE94] ∧ joinsPrev next = true

/-- A form of the letter, and the one its neighbours ask for except in the cases above. -/
def mostlyInContext : Drawing := fun prev r next b => Form r b ∧ (¬ misdrawn prev r next → inContext prev r next b)

end Verif.ArabicSpec
