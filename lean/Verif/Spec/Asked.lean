import Verif.Model.Program
/-
Independent specification: the characters a program asks to be drawn, page by page.
-/
namespace Verif.Program

/-- The text of a call. -/
def written : Call → List Nat
  | .text t | .cell _ t | .cellWithOption _ t _ _ => t
  | _ => []

/-- The text calls of a program on page `k` (pages are counted from 1; `n` pages are there). -/
def textOn (k : Nat) : (n : Nat) → List Call → List Nat
  | _, [] => []
  | n, c :: rest => (if n = k then written c else []) ++ textOn k (if isPage c then n + 1 else n) rest

/-- A character to be drawn: the family of the font, the number the font has in the document (from 1), the character. -/
structure Asked where
  family : Nat
  number : Nat
  char : Nat

/-- The current family after a call: that of the last SetFont that succeeded. -/
def familyAfter (s : St) (family : Nat) : Call → Nat
  | .setFont f style _ => if (Doc.step s.doc (.setFont f style)).2 = .ok then f else family
  | _ => family

/-- The characters asked for on page `k`, with their fonts. -/
def asked (e : Content.Env) (k : Nat) : (family n : Nat) → St → List Call → List Asked
  | _, _, _, [] => []
  | family, n, s, c :: rest =>
    (if n = k then (written c).map fun r => ⟨family, s.content.cur.font + 1, r⟩ else []) ++
    match step e s c with
    | none => []
    | some s' => asked e k (familyAfter s family c) (if isPage c then n + 1 else n) s' rest

end Verif.Program
