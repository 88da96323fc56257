import Verif.Base.Hex
import Verif.Spec.Utf16
/-
Independent readers: the TJ operator's array (ISO 32000-1 §9.4.3, with the two-byte codes of Identity-H, §9.7.5.2),
and the `bfrange` section of a ToUnicode CMap (§9.10.3).
-/
namespace Verif.TextShow

/-- An element shown: a two-byte character code, or a position adjustment. -/
inductive Item where
  | code (n : Nat)
  | adjust (n : Int)
  deriving DecidableEq, Repr

/-- Two-byte codes of a decoded string. -/
def codes (bs : Bytes) : Option (List Item) := (Utf16.units bs).map fun l => l.map Item.code

/-- A decimal integer, optionally negative. -/
def intVal : Bytes → Option Int
  | 45 :: ds => if ds ≠ [] ∧ ds.all isDigit then some (-(decVal ds : Int)) else none
  | ds => if ds ≠ [] ∧ ds.all isDigit then some (decVal ds : Int) else none

/-- Elements of the array up to `]`: `<hex>` strings and numbers.  Returns what follows the bracket. -/
def arrayItems : Nat → Bytes → Option (List Item × Bytes)
  | 0, _ => none
  | _, 93 :: rest => some ([], rest)
  | fuel + 1, 60 :: rest => do
    let c ← (hexDecode (rest.takeWhile (· != 62))).bind codes
    let after ← dropPrefix? [62] (rest.dropWhile (· != 62))
    let (more, tail) ← arrayItems fuel after
    pure (c ++ more, tail)
  | fuel + 1, rest => do
    let isNum := fun b : UInt8 => b == 45 || isDigit b
    let n ← intVal (rest.takeWhile isNum)
    let (more, tail) ← arrayItems fuel (rest.dropWhile isNum)
    pure (Item.adjust n :: more, tail)

/-- Read `[...] TJ⏎`. -/
def readTJ (bs : Bytes) : Option (List Item) := do
  let r ← dropPrefix? [91] bs
  let (items, tail) ← arrayItems (r.length + 1) r
  if tail = lit " TJ\n" then some items else none

/-- Split at newlines. -/
def lines : Bytes → List Bytes
  | [] => [[]]
  | 10 :: rest => [] :: lines rest
  | b :: rest =>
    match lines rest with
    | l :: ls => (b :: l) :: ls
    | [] => [[b]]

/-- One `<...>` string. -/
def angle (bs : Bytes) : Option (Bytes × Bytes) := do
  let r ← dropPrefix? [60] bs
  let after ← dropPrefix? [62] (r.dropWhile (· != 62))
  let v ← hexDecode (r.takeWhile (· != 62))
  pure (v, after)

/-- A `bfrange` entry: first code, last code, destination bytes. -/
structure Entry where
  lo : Bytes
  hi : Bytes
  dst : Bytes
  deriving DecidableEq, Repr

def entry (line : Bytes) : Option Entry := do
  let (a, r) ← angle line
  let (b, r) ← angle r
  let (c, r) ← angle r
  if r = [] then some ⟨a, b, c⟩ else none

/-- The line ends with the word `beginbfrange`. -/
def isBegin (line : Bytes) : Bool := (lit "beginbfrange").isSuffixOf line

/-- All entries of the `bfrange` section of a CMap stream: the lines after `... beginbfrange` and before
`endbfrange`. -/
def entries (bs : Bytes) : Option (List Entry) :=
  (((lines bs).dropWhile fun l => !isBegin l).drop 1 |>.takeWhile fun l => l != lit "endbfrange").mapM entry

/-- Big-endian number of a byte string. -/
def bigEndian (bs : Bytes) : Nat := bs.foldl (fun a b => 256 * a + b.toNat) 0

/-- Add `k` to the last 16-bit unit. -/
def bump (k : Nat) : List Nat → List Nat
  | [] => []
  | [u] => [u + k]
  | u :: v :: r => u :: bump k (v :: r)

/-- What an entry says about a two-byte code: the Unicode text, if the code is in its range and the destination is
proper UTF-16BE. -/
def Entry.text (e : Entry) (code : Nat) : Option (List Nat) :=
  if e.lo.length = 2 ∧ e.hi.length = 2 ∧ bigEndian e.lo ≤ code ∧ code ≤ bigEndian e.hi then do
    let u ← Utf16.units e.dst
    Utf16.decodeUnits (bump (code - bigEndian e.lo) u)
  else none

/-- The CMap maps the code to the text, unambiguously: some entry covers the code, and every entry that covers it
gives this text. -/
def ToText (stream : Bytes) (code : Nat) (text : List Nat) : Prop :=
  ∃ es, entries stream = some es ∧ (∃ e ∈ es, bigEndian e.lo ≤ code ∧ code ≤ bigEndian e.hi) ∧
    ∀ e ∈ es, bigEndian e.lo ≤ code → code ≤ bigEndian e.hi → e.text code = some text

/-- The codespace ranges of a CMap are boxes: a two-byte code is inside when each byte lies between the
corresponding bytes of the ends (ISO 32000-1 §9.7.6.2, Adobe Technical Note 5014). -/
def inCodespace (lo hi : Bytes) (code : Nat) : Prop :=
  ∃ l0 l1 h0 h1, lo = [l0, l1] ∧ hi = [h0, h1] ∧
    l0.toNat ≤ code / 256 ∧ code / 256 ≤ h0.toNat ∧ l1.toNat ≤ code % 256 ∧ code % 256 ≤ h1.toNat

end Verif.TextShow
