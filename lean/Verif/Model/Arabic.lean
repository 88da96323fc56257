/-
Arabic text (arabic_helper.go, arabic_alphabet.go).  Text is a list of runes: the bytes are valid UTF-8.
The table of letters was generated from arabic_alphabet.go.
-/
namespace Verif.Arabic

/-- `Harf` (arabic_alphabet.go 4-6). -/
structure Harf where
  unicode : Nat
  isolated : Nat
  beginning : Nat
  middle : Nat
  final : Nat
  deriving DecidableEq, Repr

/-- `ALEF_HAMZA_ABOVE` (arabic_alphabet.go 71-76). -/
def alef_hamza_above : Harf := ⟨0x0623, 0xfe83, 0x0623, 0xfe84, 0xfe84⟩
/-- `ALEF` (arabic_alphabet.go 78-83). -/
def alef : Harf := ⟨0x0627, 0xfe8d, 0x0627, 0xfe8e, 0xfe8e⟩
/-- `ALEF_MADDA_ABOVE` (arabic_alphabet.go 85-90). -/
def alef_madda_above : Harf := ⟨0x0622, 0xfe81, 0x0622, 0xfe82, 0xfe82⟩
/-- `HAMZA` (arabic_alphabet.go 92-97). -/
def hamza : Harf := ⟨0x0621, 0xfe80, 0x0621, 0x0621, 0x0621⟩
/-- `WAW_HAMZA_ABOVE` (arabic_alphabet.go 99-104). -/
def waw_hamza_above : Harf := ⟨0x0624, 0xfe85, 0x0624, 0xfe86, 0xfe86⟩
/-- `ALEF_HAMZA_BELOW` (arabic_alphabet.go 106-111). -/
def alef_hamza_below : Harf := ⟨0x0625, 0xfe87, 0x0625, 0xfe88, 0xfe88⟩
/-- `YEH_HAMZA_ABOVE` (arabic_alphabet.go 113-118). -/
def yeh_hamza_above : Harf := ⟨0x0626, 0xfe89, 0xfe8b, 0xfe8c, 0xfe8a⟩
/-- `BEH` (arabic_alphabet.go 120-125). -/
def beh : Harf := ⟨0x0628, 0xfe8f, 0xfe91, 0xfe92, 0xfe90⟩
/-- `PEH` (arabic_alphabet.go 127-132). -/
def peh : Harf := ⟨0x067e, 0xfb56, 0xfb58, 0xfb59, 0xfb57⟩
/-- `TEH` (arabic_alphabet.go 134-139). -/
def teh : Harf := ⟨0x062a, 0xfe95, 0xfe97, 0xfe98, 0xfe96⟩
/-- `TEH_MARBUTA` (arabic_alphabet.go 141-146). -/
def teh_marbuta : Harf := ⟨0x0629, 0xfe93, 0x0629, 0x0629, 0xfe94⟩
/-- `THEH` (arabic_alphabet.go 148-153). -/
def theh : Harf := ⟨0x062b, 0xfe99, 0xfe9b, 0xfe9c, 0xfe9a⟩
/-- `JEEM` (arabic_alphabet.go 155-160). -/
def jeem : Harf := ⟨0x062c, 0xfe9d, 0xfe9f, 0xfea0, 0xfe9e⟩
/-- `TCHEH` (arabic_alphabet.go 162-167). -/
def tcheh : Harf := ⟨0x0686, 0xfb7a, 0xfb7c, 0xfb7d, 0xfb7b⟩
/-- `HAH` (arabic_alphabet.go 169-174). -/
def hah : Harf := ⟨0x062d, 0xfea1, 0xfea3, 0xfea4, 0xfea2⟩
/-- `KHAH` (arabic_alphabet.go 176-181). -/
def khah : Harf := ⟨0x062e, 0xfea5, 0xfea7, 0xfea8, 0xfea6⟩
/-- `DAL` (arabic_alphabet.go 183-188). -/
def dal : Harf := ⟨0x062f, 0xfea9, 0x062f, 0xfeaa, 0xfeaa⟩
/-- `THAL` (arabic_alphabet.go 190-195). -/
def thal : Harf := ⟨0x0630, 0xfeab, 0x0630, 0xfeac, 0xfeac⟩
/-- `REH` (arabic_alphabet.go 197-202). -/
def reh : Harf := ⟨0x0631, 0xfead, 0x0631, 0xfeae, 0xfeae⟩
/-- `JEH` (arabic_alphabet.go 204-209). -/
def jeh : Harf := ⟨0x0698, 0xfb8a, 0x0698, 0xfb8b, 0xfb8b⟩
/-- `ZAIN` (arabic_alphabet.go 212-217). -/
def zain : Harf := ⟨0x0632, 0xfeaf, 0x0632, 0xfeb0, 0xfeb0⟩
/-- `SEEN` (arabic_alphabet.go 219-224). -/
def seen : Harf := ⟨0x0633, 0xfeb1, 0xfeb3, 0xfeb4, 0xfeb2⟩
/-- `SHEEN` (arabic_alphabet.go 226-231). -/
def sheen : Harf := ⟨0x0634, 0xfeb5, 0xfeb7, 0xfeb8, 0xfeb6⟩
/-- `SAD` (arabic_alphabet.go 233-238). -/
def sad : Harf := ⟨0x0635, 0xfeb9, 0xfebb, 0xfebc, 0xfeba⟩
/-- `DAD` (arabic_alphabet.go 240-245). -/
def dad : Harf := ⟨0x0636, 0xfebd, 0xfebf, 0xfec0, 0xfebe⟩
/-- `TAH` (arabic_alphabet.go 247-252). -/
def tah : Harf := ⟨0x0637, 0xfec1, 0xfec3, 0xfec4, 0xfec2⟩
/-- `ZAH` (arabic_alphabet.go 254-259). -/
def zah : Harf := ⟨0x0638, 0xfec5, 0xfec7, 0xfec8, 0xfec6⟩
/-- `AIN` (arabic_alphabet.go 261-266). -/
def ain : Harf := ⟨0x0639, 0xfec9, 0xfecb, 0xfecc, 0xfeca⟩
/-- `GHAIN` (arabic_alphabet.go 268-273). -/
def ghain : Harf := ⟨0x063a, 0xfecd, 0xfecf, 0xfed0, 0xfece⟩
/-- `FEH` (arabic_alphabet.go 275-280). -/
def feh : Harf := ⟨0x0641, 0xfed1, 0xfed3, 0xfed4, 0xfed2⟩
/-- `QAF` (arabic_alphabet.go 282-287). -/
def qaf : Harf := ⟨0x0642, 0xfed5, 0xfed7, 0xfed8, 0xfed6⟩
/-- `KAF` (arabic_alphabet.go 289-294). -/
def kaf : Harf := ⟨0x0643, 0xfed9, 0xfedb, 0xfedc, 0xfeda⟩
/-- `KEHEH` (arabic_alphabet.go 296-301). -/
def keheh : Harf := ⟨0x06a9, 0xfb8e, 0xfb90, 0xfb91, 0xfb8f⟩
/-- `GAF` (arabic_alphabet.go 304-309). -/
def gaf : Harf := ⟨0x06af, 0xfb92, 0xfb94, 0xfb95, 0xfb93⟩
/-- `LAM` (arabic_alphabet.go 311-316). -/
def lam : Harf := ⟨0x0644, 0xfedd, 0xfedf, 0xfee0, 0xfede⟩
/-- `MEEM` (arabic_alphabet.go 318-323). -/
def meem : Harf := ⟨0x0645, 0xfee1, 0xfee3, 0xfee4, 0xfee2⟩
/-- `NOON` (arabic_alphabet.go 325-330). -/
def noon : Harf := ⟨0x0646, 0xfee5, 0xfee7, 0xfee8, 0xfee6⟩
/-- `HEH` (arabic_alphabet.go 332-337). -/
def heh : Harf := ⟨0x0647, 0xfee9, 0xfeeb, 0xfeec, 0xfeea⟩
/-- `WAW` (arabic_alphabet.go 339-344). -/
def waw : Harf := ⟨0x0648, 0xfeed, 0x0648, 0xfeee, 0xfeee⟩
/-- `YEH` (arabic_alphabet.go 346-351). -/
def yeh : Harf := ⟨0x06cc, 0xfbfc, 0xfbfe, 0xfbff, 0xfbfd⟩
/-- `ARABICYEH` (arabic_alphabet.go 353-358). -/
def arabicyeh : Harf := ⟨0x064a, 0xfef1, 0xfef3, 0xfef4, 0xfef2⟩
/-- `ALEF_MAKSURA` (arabic_alphabet.go 360-365). -/
def alef_maksura : Harf := ⟨0x0649, 0xfeef, 0x0649, 0xfef0, 0xfef0⟩
/-- `TATWEEL` (arabic_alphabet.go 367-372). -/
def tatweel : Harf := ⟨0x0640, 0x0640, 0x0640, 0x0640, 0x0640⟩
/-- `LAM_ALEF` (arabic_alphabet.go 374-379). -/
def lam_alef : Harf := ⟨0xfefb, 0xfefb, 0xfefb, 0xfefc, 0xfefc⟩
/-- `LAM_ALEF_HAMZA_ABOVE` (arabic_alphabet.go 381-386). -/
def lam_alef_hamza_above : Harf := ⟨0xfef7, 0xfef7, 0xfef7, 0xfef8, 0xfef8⟩

/-- `arabicAlphabetCollection` (arabic_alphabet.go 391-437). -/
def collection : List Harf :=
  [alef_hamza_above, alef, alef_madda_above, hamza, waw_hamza_above, alef_hamza_below, yeh_hamza_above, beh, peh, teh, teh_marbuta, theh, jeem, tcheh, hah, khah, dal, thal, reh, jeh, zain, seen, sheen, sad, dad, tah, zah, ain, ghain, feh, qaf, kaf, keheh, gaf, lam, meem, noon, heh, waw, yeh, arabicyeh, alef_maksura, tatweel, lam_alef, lam_alef_hamza_above]

/-- `rightJoiningOnlyLetters` (arabic_alphabet.go 451-464). -/
def rightJoiningOnly : List Harf :=
  [alef_hamza_above, alef_madda_above, alef, hamza, waw_hamza_above, alef_hamza_below, teh_marbuta, dal, thal, reh, zain, waw, alef_maksura]

/-- `SHADDA` (arabic_alphabet.go 13). -/
def shadda : Nat := 0x0651

/-- `tashkeelMarks` (arabic_alphabet.go 38-51). -/
def marks : List Nat := [0x064e, 0x064f, 0x0650, 0x0651, 0x0652, 0x064c, 0x064b, 0x064d, 0x0670, 0x0653, 0x0654, 0x0655, 0x0656, 0x0657, 0x0658]

/-- `IsTashkeel` (arabic_helper.go 148-150). -/
def isTashkeel (r : Nat) : Bool := marks.contains r

/-- `shaddaLigatures` (arabic_alphabet.go 54-61): vowel and ligature. -/
def shaddaLigatures : List (Nat × Nat) := [(0x064e, 0xfc60), (0x064f, 0xfc61), (0x0650, 0xfc62), (0x064c, 0xfc5e), (0x064d, 0xfc5f), (0x0670, 0xfc63)]

/-- `GetShaddaLigature` (arabic_alphabet.go 64-66); `none` is 0. -/
def shaddaLigature (v : Nat) : Option Nat := shaddaLigatures.lookup v

/-- `equals` (arabic_helper.go 63-78). -/
def Harf.equals (h : Harf) (c : Nat) : Bool :=
  c == h.unicode || c == h.beginning || c == h.isolated || c == h.middle || c == h.final

/-- Keys of the map `arabicAlphabet` (arabic_alphabet.go, `init`). -/
def inAlphabet (c : Nat) : Bool := collection.any (·.equals c)

/-- `getHarf` (arabic_helper.go 52-59).  The code ranges over a map, in any order; `harf_unique` shows that the order does not
matter. -/
def getHarf (c : Nat) : Harf := (collection.find? (·.equals c)).getD ⟨c, c, 0, c, c⟩

/-- `getCharShape` (arabic_helper.go 81-124). -/
def getCharShape (prev cur next : Nat) : Nat :=
  if !inAlphabet cur then cur
  else if inAlphabet prev && inAlphabet next then
    if rightJoiningOnly.any (·.equals prev) then (getHarf cur).beginning else (getHarf cur).middle
  else if inAlphabet next then (getHarf cur).beginning
  else if inAlphabet prev then
    if rightJoiningOnly.any (·.equals prev) then (getHarf cur).isolated else (getHarf cur).final
  else (getHarf cur).isolated

/-- `findPreviousNonTashkeelHarf` (arabic_helper.go 128-135); `before` is the text before the position, last rune first. -/
def findPrevious (before : List Nat) : Nat := (before.find? (!isTashkeel ·)).getD 0

/-- `findNextNonTashkeelHarf` (arabic_helper.go 138-145); `rest` is the text after the position. -/
def findNext (rest : List Nat) : Nat := (rest.find? (!isTashkeel ·)).getD 0

/-- `ALLAH_LIGATURE` (arabic_helper.go 6). -/
def allahLigature : Nat := 0xFDF2

/-- `convertAllahToLigature` (arabic_helper.go 9-14): `strings.ReplaceAll`, from left to right. -/
def convertAllah : List Nat → List Nat
  | a :: b :: c :: d :: rest =>
    if a = alef.unicode ∧ b = lam.unicode ∧ c = lam.unicode ∧ d = heh.unicode then allahLigature :: convertAllah rest
    else a :: convertAllah (b :: c :: d :: rest)
  | l => l

/-- The ligature of lam and the next letter (arabic_helper.go 183-193). -/
def lamLigature (next : Nat) : Option Harf :=
  if next = alef.unicode then some lam_alef
  else if next = alef_hamza_above.unicode then some lam_alef_hamza_above
  else none

/-- One rune that is no mark, up to the next one in the text: what is appended, what was read, and what is left
(arabic_helper.go 176-214). -/
def letterStep (before : List Nat) (cur : Nat) (rest : List Nat) : List Nat × List Nat × List Nat :=
  let prev := findPrevious before
  let next := findNext rest
  match if cur = lam.unicode then lamLigature next else none with
  | some l =>
    let between := rest.takeWhile (· ≠ next)
    let rest' := (rest.dropWhile (· ≠ next)).tail
    (getCharShape prev l.unicode (findNext rest') :: between.filter isTashkeel, cur :: between ++ [next], rest')
  | none => ([getCharShape prev cur next], [cur], rest)

/-- Whether a mark and the rune after it are drawn as one (arabic_helper.go 164-172). -/
def shaddaPair (cur : Nat) (rest : List Nat) : Option (Nat × List Nat) :=
  match rest with
  | s :: rest' => if s = shadda ∧ cur ≠ shadda then (shaddaLigature cur).map (·, rest') else none
  | [] => none

/-- The loop of `ToArabic` (arabic_helper.go 160-215), at most `fuel` rounds; `before` as in `findPrevious`. -/
def loop : Nat → List Nat → List Nat → List Nat
  | 0, _, _ => []
  | _ + 1, _, [] => []
  | fuel + 1, before, cur :: rest =>
    if isTashkeel cur then
      match shaddaPair cur rest with
      | some (l, rest') => l :: loop fuel (shadda :: cur :: before) rest'
      | none => cur :: loop fuel (cur :: before) rest
    else
      let o := letterStep before cur rest
      o.1 ++ loop fuel (o.2.1.reverse ++ before) o.2.2

/-- The groups of `reverseWithTashkeel` (arabic_helper.go 28-40), last group first: base and marks. -/
def groups : List (Nat × List Nat) → List Nat → List (Nat × List Nat)
  | acc, [] => acc
  | [], r :: rest => groups (if isTashkeel r then [] else [(r, [])]) rest
  | g :: acc, r :: rest => groups (if isTashkeel r then (g.1, g.2 ++ [r]) :: acc else (r, []) :: g :: acc) rest

/-- `reverseWithTashkeel` (arabic_helper.go 17-50). -/
def reverseWithTashkeel (runes : List Nat) : List Nat := (groups [] runes).flatMap fun g => g.2 ++ [g.1]

/-- `ToArabic` (arabic_helper.go 152-217).  The loop makes at most one round for each rune. -/
def toArabic (text : List Nat) : List Nat :=
  let t := convertAllah text
  reverseWithTashkeel (loop t.length [] t)

end Verif.Arabic
