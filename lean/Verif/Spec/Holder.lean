import Verif.Model.Holder
/- Independent specification: which data a caller means by a holder or a path, from what the caller did. -/
namespace Verif.Holder

/-- The files after the caller's acts. -/
def filesAfter (files : Bytes → Option Bytes) : List Act → Bytes → Option Bytes
  | [] => files
  | .write p b :: rest => filesAfter (Function.update files p (some b)) rest
  | _ :: rest => filesAfter files rest

/-- The data that one act gives a name to: a holder's (`true`), or those of a picture drawn at once. -/
def named (e : Env) (files : Bytes → Option Bytes) : Act → List (Bool × Bytes × Bytes)
  | .byBytes b => [(true, (ofBytes e b).id, b)]
  | .byPath p => ((files p).map fun b => (true, p, b)).toList
  | .image _ p _ => ((files p).map fun b => (false, p, b)).toList
  | .imageFrom _ b _ => [(false, (ofBytes e b).id, b)]
  | _ => []

/-- ... that the acts give names to, in order. -/
def sources (e : Env) (files : Bytes → Option Bytes) : List Act → List (Bool × Bytes × Bytes)
  | [] => []
  | a :: rest => named e files a ++ sources e (filesAfter files [a]) rest

/-- The holders made: name and data. -/
def held (e : Env) (files : Bytes → Option Bytes) (acts : List Act) : List (Bytes × Bytes) :=
  (sources e files acts).filterMap fun p => if p.1 then some p.2 else none

/-- No name stands for two different data: MD5 has no collision among them, no file was changed after it was used, and no path looks
like a checksum. -/
def Faithful (e : Env) (files : Bytes → Option Bytes) (acts : List Act) : Prop :=
  ∀ p ∈ sources e files acts, ∀ q ∈ sources e files acts, p.2.1 = q.2.1 → p.2.2 = q.2.2

/-- What an act asks for, given the holders: document, name, what for. -/
def asked (e : Env) (hs : List (Bytes × Bytes)) : Act → List (Nat × Bytes × Kind)
  | .draw d h none _ => (hs[h]?.map fun p => (d, p.1, Kind.plain)).toList
  | .draw d h (some (m, _)) _ => (hs[m]?.map fun p => (d, p.1, Kind.mask)).toList ++ (hs[h]?.map fun p => (d, p.1, Kind.masked)).toList
  | .image d p _ => [(d, p, .plain)]
  | .imageFrom d b _ => [(d, (ofBytes e b).id, .plain)]
  | _ => []

/-- What the acts ask for. -/
def uses (e : Env) (files : Bytes → Option Bytes) (acts : List Act) : List (Nat × Bytes × Kind) :=
  acts.flatMap (asked e (held e files acts))

/-- In no document one picture is used in two ways: bare, through a mask, as a mask. -/
def OneRole (e : Env) (files : Bytes → Option Bytes) (acts : List Act) : Prop :=
  ∀ p ∈ uses e files acts, ∀ q ∈ uses e files acts, p.1 = q.1 → p.2.1 = q.2.1 → p.2.2 = q.2.2

/-- Does an act read the holder? -/
def touches (h : Nat) : Act → Bool
  | .draw _ h' mask _ => h' == h || mask.any fun m => m.1 == h
  | _ => false

end Verif.Holder
