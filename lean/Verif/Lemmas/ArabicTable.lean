import Verif.Model.Arabic
/- The definitions of Spec/Arabic.lean over the library's own tables; shown to say the same in Props/Arabic.lean. -/
namespace Verif.ArabicTable
open Arabic

/-- `b` is a form of the letter `r`; runes that are no letters of the table have only themselves. -/
def Form (r b : Nat) : Prop := (∃ h ∈ collection, h.equals r = true ∧ h.equals b = true) ∨ inAlphabet r = false ∧ b = r

/-- A mark as drawn: the ligatures of a vowel and shadda stand for both. -/
def expandMark (m : Nat) : List Nat := match shaddaLigatures.find? (·.2 = m) with
  | some (v, _) => [v, shadda]
  | none => [m]

/-- The marks drawn are the marks of the text; they may be in another order and vowels joined with shadda. -/
def MarksDrawn (ms drawn : List Nat) : Prop := (∀ m ∈ ms, isTashkeel m = true) ∧ (drawn.flatMap expandMark).Perm ms

/-- The text does not begin with a mark. -/
def StartsPlain (t : List Nat) : Prop := ∀ m rest, t = m :: rest → isTashkeel m = false

/-- How a letter may be drawn: the letter before (0: none), the letter, the letter after (0: none), what is drawn. -/
abbrev Drawing := Nat → Nat → Nat → Nat → Prop

/-- Only the letter counts. -/
def anyForm : Drawing := fun _ r _ b => Form r b

/-- A text in reading order that follows the letter `prev`, and the letters drawn for it, each with its marks: every letter as
`P` says, lam and alef as `P` says for their ligature, the word Allah by its ligature. -/
inductive Reads (P : Drawing) : Nat → List Nat → List (Nat × List Nat) → Prop where
  | nil (prev : Nat) : Reads P prev [] []
  | letter (prev r b : Nat) (ms drawn rest : List Nat) (cs : List (Nat × List Nat)) (hr : isTashkeel r = false)
      (hf : P prev r (rest.headD 0) b) (hm : MarksDrawn ms drawn) (hs : StartsPlain rest) (h : Reads P r rest cs) :
      Reads P prev (r :: ms ++ rest) ((b, drawn) :: cs)
  | lamAlef (prev a : Nat) (l : Harf) (b : Nat) (ms1 ms2 drawn rest : List Nat) (cs : List (Nat × List Nat))
      (hl : a = 0x0627 ∧ l = lam_alef ∨ a = 0x0623 ∧ l = lam_alef_hamza_above) (hf : P prev l.unicode (rest.headD 0) b)
      (h1 : ∀ m ∈ ms1, isTashkeel m = true) (hm : MarksDrawn (ms1 ++ ms2) drawn) (hs : StartsPlain rest) (h : Reads P a rest cs) :
      Reads P prev (0x0644 :: ms1 ++ a :: ms2 ++ rest) ((b, drawn) :: cs)
  | allah (prev : Nat) (ms drawn rest : List Nat) (cs : List (Nat × List Nat)) (hm : MarksDrawn ms drawn) (hs : StartsPlain rest)
      (h : Reads P 0xFDF2 rest cs) :
      Reads P prev (0x0627 :: 0x0644 :: 0x0644 :: 0x0647 :: ms ++ rest) ((0xFDF2, drawn) :: cs)

/-- A line drawn from right to left: the first letter last, its marks before it. -/
def rightToLeft (cs : List (Nat × List Nat)) : List Nat := cs.reverse.flatMap fun c => c.2 ++ [c.1]

/-! ### Joining, after the Unicode data file ArabicShaping.txt -/

/-- Letters that do not join to the letter after them (types R and U; alef maksura, which has only an isolated and a final
form, is counted among them). -/
def endsJoin : List Harf :=
  [alef_madda_above, alef_hamza_above, alef_hamza_below, alef, waw_hamza_above, waw, teh_marbuta, dal, thal, reh, zain, jeh, hamza,
   alef_maksura, lam_alef, lam_alef_hamza_above]

/-- The form of `h` when the letter before does (`before`), and when the letter after does (`after`) join to it. -/
def forms (h : Harf) (before after : Bool) : List Nat :=
  match before && h != hamza, after && !endsJoin.contains h with
  | true, true => [h.middle]
  | true, false => [h.final]
  | false, true => [h.beginning]
  | false, false => [h.isolated, h.unicode]

/-- The letter `c` joins to the one after it; the letter `c` joins to the one before it. -/
def joinsNext (c : Nat) : Bool := collection.any fun h => h.equals c && !endsJoin.contains h
def joinsPrev (c : Nat) : Bool := collection.any fun h => h.equals c && h != hamza

/-- A letter is drawn in the form its neighbours ask for. -/
def inContext : Drawing := fun prev r next b =>
  ∀ h ∈ collection, h.equals r = true → b ∈ forms h (joinsNext prev) (joinsPrev next)

/-- What the code gets wrong: after jeh or an alef ligature, before hamza, and for teh marbuta within a word. -/
def misdrawn (prev r next : Nat) : Prop :=
  jeh.equals prev = true ∨ lam_alef.equals prev = true ∨ lam_alef_hamza_above.equals prev = true ∨ hamza.equals next = true ∨
    teh_marbuta.equals r = true ∧ joinsPrev next = true

/-- A form of the letter, and the one its neighbours ask for except in the cases above. -/
def mostlyInContext : Drawing := fun prev r next b => Form r b ∧ (¬ misdrawn prev r next → inContext prev r next b)

end Verif.ArabicTable
