import Verif.Base.Bytes
/- A reader for PDF literal strings, written from ISO 32000-1 §7.3.4.2, as a byte-by-byte automaton. -/
namespace Verif.LitString

inductive St where
  | norm                    -- ordinary text
  | esc                     -- just read a backslash
  | oct (v k : Nat)         -- inside an octal escape: value so far, digits read
  | cr                      -- just read a bare CR (already delivered as LF); a following LF is part of it
  | escCr                   -- backslash CR: line continuation; a following LF is part of it
  deriving DecidableEq

inductive Act where
  | finish (out : Bytes)                  -- the closing parenthesis
  | go (out : Bytes) (st : St) (depth : Nat)

def isOct (b : UInt8) : Bool := 48 ≤ b.toNat && b.toNat ≤ 55

/-- An ordinary byte; `depth` counts unclosed inner parentheses. -/
def actNorm (depth : Nat) (b : UInt8) : Act :=
  if b = 92 then .go [] .esc depth
  else if b = 40 then .go [40] .norm (depth + 1)
  else if b = 41 then (match depth with
    | 0 => .finish []
    | d + 1 => .go [41] .norm d)
  else if b = 13 then .go [10] .cr depth      -- an unescaped end-of-line marker reads as LF
  else .go [b] .norm depth

def Act.pre (p : Bytes) : Act → Act
  | .finish o => .finish (p ++ o)
  | .go o s d => .go (p ++ o) s d

def act (st : St) (depth : Nat) (b : UInt8) : Act :=
  match st with
  | .norm => actNorm depth b
  | .cr => if b = 10 then .go [] .norm depth else actNorm depth b
  | .escCr => if b = 10 then .go [] .norm depth else actNorm depth b
  | .oct v k =>
    if isOct b ∧ k < 3 then .go [] (.oct (8 * v + (b.toNat - 48)) (k + 1)) depth
    else (actNorm depth b).pre [UInt8.ofNat v]
  | .esc =>
    if b = 110 then .go [10] .norm depth        -- \n
    else if b = 114 then .go [13] .norm depth   -- \r
    else if b = 116 then .go [9] .norm depth    -- \t
    else if b = 98 then .go [8] .norm depth     -- \b
    else if b = 102 then .go [12] .norm depth   -- \f
    else if b = 10 then .go [] .norm depth      -- line continuation
    else if b = 13 then .go [] .escCr depth
    else if isOct b then .go [] (.oct (b.toNat - 48) 1) depth
    else .go [b] .norm depth                    -- \( \) \\ ; for anything else the backslash is ignored

/-- Read the string after its opening parenthesis: its value and the bytes after the closing parenthesis. -/
def read : St → Nat → Bytes → Option (Bytes × Bytes)
  | _, _, [] => none
  | st, d, b :: r =>
    match act st d b with
    | .finish out => some (out, r)
    | .go out st d => (read st d r).map fun p => (out ++ p.1, p.2)

/-- Read a literal string token. -/
def readString : Bytes → Option (Bytes × Bytes)
  | 40 :: r => read .norm 0 r
  | _ => none

end Verif.LitString
