import Verif.Spec.ContentReader
import Verif.Spec.LitString
import Verif.Spec.PdfReader
/-
Independent specification: reading an indirect object from bytes (ISO 32000-1 §7.2, §7.3).  Numbers, names, strings
(literal and hexadecimal), arrays, dictionaries, references, `null`, `true`, `false` and streams are read; comments, names
with `#` and anything malformed (an unclosed array, a dictionary with an odd number of objects, a key that is not a name, a
repeated key, a stream without a correct `/Length`) are errors.
-/
namespace Verif.PdfObject
open ContentReader (isWhite isDelim isRegular number nat)
open LitString (St act)

/-! ### Tokens -/

inductive Tok where
  | word (b : Bytes)
  | name (b : Bytes)
  | str (b : Bytes)
  | arrOpen
  | arrClose
  | dictOpen
  | dictClose
  deriving DecidableEq

/-- What the tokenizer has begun. -/
inductive Mode where
  | gap
  | word (b : Bytes)
  | name (b : Bytes)
  /-- after `<` -/
  | lt
  /-- after `>`, which must be followed by another -/
  | gt
  | hex (b : Bytes)
  | str (st : St) (depth : Nat) (b : Bytes)
  deriving DecidableEq

/-- A byte that ends a word or a name, or comes between tokens. -/
def boundary (b : UInt8) : Option (List Tok × Mode) :=
  if isWhite b then some ([], .gap)
  else if b = 91 then some ([.arrOpen], .gap)
  else if b = 93 then some ([.arrClose], .gap)
  else if b = 60 then some ([], .lt)
  else if b = 62 then some ([], .gt)
  else if b = 47 then some ([], .name [])
  else if b = 40 then some ([], .str .norm 0 [])
  else none

/-- One byte: the tokens it completes. -/
def feed (m : Mode) (b : UInt8) : Option (List Tok × Mode) := match m with
  | .gap => if isRegular b then some ([], .word [b]) else boundary b
  | .word w => if isRegular b then some ([], .word (w ++ [b])) else (boundary b).map fun r => (.word w :: r.1, r.2)
  | .name w => if b = 35 then none
    else if isRegular b then some ([], .name (w ++ [b])) else (boundary b).map fun r => (.name w :: r.1, r.2)
  | .lt => if b = 60 then some ([.dictOpen], .gap) else if b = 62 then some ([.str []], .gap)
    else if (hexVal b).isSome then some ([], .hex [b]) else none
  | .gt => if b = 62 then some ([.dictClose], .gap) else none
  | .hex d => if b = 62 then (hexDecode d).map fun s => ([.str s], .gap)
    else if (hexVal b).isSome then some ([], .hex (d ++ [b])) else none
  | .str st depth s => match act st depth b with
    | .finish out => some ([.str (s ++ out)], .gap)
    | .go out st depth => some ([], .str st depth (s ++ out))

/-! ### Objects -/

inductive Val where
  | null
  | bool (b : Bool)
  | num (q : ℚ)
  | name (b : Bytes)
  | str (b : Bytes)
  | ref (n : Nat)
  | arr (l : List Val)
  | dict (l : List (Bytes × Val))

/-- The objects read so far, the last one first, and the brackets still open. -/
inductive Entry where
  | val (v : Val)
  | arrOpen
  | dictOpen

/-- `]`: everything since `[`. -/
def closeArr : List Val → List Entry → Option (List Entry)
  | l, .arrOpen :: st => some (.val (.arr l) :: st)
  | l, .val v :: st => closeArr (v :: l) st
  | _, _ => none

/-- Keys and values. -/
def pairs : List Val → Option (List (Bytes × Val))
  | [] => some []
  | .name k :: v :: l => (pairs l).map ((k, v) :: ·)
  | _ => none

/-- `>>`: everything since `<<`; no key twice. -/
def closeDict : List Val → List Entry → Option (List Entry)
  | l, .dictOpen :: st => (pairs l).bind fun ps => if (ps.map (·.1)).Nodup then some (.val (.dict ps) :: st) else none
  | l, .val v :: st => closeDict (v :: l) st
  | _, _ => none

/-- `n 0 R` (all generation numbers are 0 here). -/
def closeRef : List Entry → Option (List Entry)
  | .val (.num g) :: .val (.num n) :: st => if g = 0 then (nat n).map fun n => .val (.ref n) :: st else none
  | _ => none

/-- A word that is not a number. -/
def keyword (w : Bytes) (st : List Entry) : Option (List Entry) :=
  if w = lit "R" then closeRef st
  else if w = lit "null" then some (.val .null :: st)
  else if w = lit "true" then some (.val (.bool true) :: st)
  else if w = lit "false" then some (.val (.bool false) :: st)
  else none

/-- One token. -/
def push (st : List Entry) : Tok → Option (List Entry)
  | .word w => match number w with
    | some q => some (.val (.num q) :: st)
    | none => keyword w st
  | .name b => some (.val (.name b) :: st)
  | .str b => some (.val (.str b) :: st)
  | .arrOpen => some (.arrOpen :: st)
  | .dictOpen => some (.dictOpen :: st)
  | .arrClose => closeArr [] st
  | .dictClose => closeDict [] st

def pushAll : List Entry → List Tok → Option (List Entry)
  | st, [] => some st
  | st, t :: ts => (push st t).bind fun st => pushAll st ts

/-- What ends an object. -/
inductive Ending where
  | endobj
  | stream
  | startxref
  deriving DecidableEq

/-- `endobj`, or `stream` and a line feed; `startxref` after the trailer. -/
def ending (ts : List Tok) (b : UInt8) : Option Ending :=
  if ts = [.word (lit "endobj")] then some .endobj
  else if ts = [.word (lit "startxref")] then some .startxref
  else if ts = [.word (lit "stream")] ∧ b = 10 then some .stream
  else none

/-- Read to the end of the object: the object, how it ends, and the bytes that follow. -/
def scan : Mode → List Entry → Bytes → Option (Val × Ending × Bytes)
  | _, _, [] => none
  | m, st, b :: bs => (feed m b).bind fun r =>
    match ending r.1 b with
    | some e => match st with
      | [.val v] => some (v, e, bs)
      | _ => none
    | none => (pushAll st r.1).bind fun st => scan r.2 st bs

/-- An entry of a dictionary. -/
def Val.get (v : Val) (key : Bytes) : Option Val := match v with
  | .dict l => (l.find? fun p => p.1 == key).map (·.2)
  | _ => none

/-- `/Length`. -/
def Val.streamLength (v : Val) : Option Nat := match v.get (lit "Length") with
  | some (.num q) => nat q
  | _ => none

/-- The bytes after `n 0 obj`: the object and, if it is a stream, its data: as many bytes as `/Length` says, followed by
white space and `endstream`, white space and `endobj`. -/
def readObject (bs : Bytes) : Option (Val × Option Bytes) :=
  (scan .gap [] bs).bind fun r => match r.2.1 with
  | .endobj => some (r.1, none)
  | .startxref => none
  | .stream => r.1.streamLength.bind fun n =>
    if n ≤ r.2.2.length then
      (dropPrefix? (lit "endstream") ((r.2.2.drop n).dropWhile isWhite)).bind fun rest =>
        (dropPrefix? (lit "endobj") (rest.dropWhile isWhite)).map fun _ => (r.1, some (r.2.2.take n))
    else none

/-- The object numbered `k` of a file, through its cross-reference table. -/
def object (file : Bytes) (k : Nat) : Option (Val × Option Bytes) :=
  (PdfReader.objectBytes file k).bind readObject

/-- The trailer dictionary (§7.5.5): after the cross-reference table and the keyword `trailer`, up to `startxref`. -/
def trailerDict (file : Bytes) : Option Val :=
  (PdfReader.xrefTable file).bind fun x => (dropPrefix? (lit "trailer") x.2).bind fun r =>
    (scan .gap [] r).bind fun r => if r.2.1 = .startxref then some r.1 else none

/-! ### References -/

/-- The references in an object, from left to right; arrays and dictionaries are entered. -/
def Val.refs : Val → List Nat
  | .ref n => [n]
  | .arr l => refsList l
  | .dict l => refsDict l
  | _ => []
where
  refsList : List Val → List Nat
    | [] => []
    | v :: l => v.refs ++ refsList l
  refsDict : List (Bytes × Val) → List Nat
    | [] => []
    | (_, v) :: l => v.refs ++ refsDict l

end Verif.PdfObject
