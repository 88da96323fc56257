import Verif.Model.Escape
import Verif.Spec.LitString
namespace Verif.Escape
open LitString

/-- One-pass escaping of a byte. -/
def escByte (b : UInt8) : Bytes :=
  if b = 92 then [92, 92] else if b = 40 then [92, 40] else if b = 41 then [92, 41]
  else if b = 13 then [92, 114] else [b]

theorem escape_eq (s : Bytes) : escape s = s.flatMap escByte := by
  induction s with
  | nil => rfl
  | cons b s ih =>
    have h : escape (b :: s) = escape [b] ++ escape s := by
      simp [escape, replaceByte, List.flatMap_append]
    rw [h, ih, List.flatMap_cons]
    congr 1
    unfold escape replaceByte escByte
    by_cases h1 : b = 92
    · subst h1; decide
    by_cases h2 : b = 40
    · subst h2; decide
    by_cases h3 : b = 41
    · subst h3; decide
    by_cases h4 : b = 13
    · subst h4; decide
    simp [h1, h2, h3, h4]

theorem read_escByte (b : UInt8) (r : Bytes) :
    read .norm 0 (escByte b ++ r) = (read .norm 0 r).map fun p => (b :: p.1, p.2) := by
  unfold escByte
  split
  · next h => subst h; simp [LitString.read, act, actNorm, isOct, Function.comp_def]
  split
  · next h => subst h; simp [LitString.read, act, actNorm, isOct, Function.comp_def]
  split
  · next h => subst h; simp [LitString.read, act, actNorm, isOct, Function.comp_def]
  split
  · next h => subst h; simp [LitString.read, act, actNorm, Function.comp_def]
  · next h1 h2 h3 h4 => simp [LitString.read, act, actNorm, h1, h2, h3, h4]

theorem read_escape (s r : Bytes) : read .norm 0 (escape s ++ 41 :: r) = some (s, r) := by
  rw [escape_eq]
  induction s with
  | nil => simp [LitString.read, act, actNorm]
  | cons b s ih =>
    rw [List.flatMap_cons, List.append_assoc, read_escByte, ih]; rfl

end Verif.Escape
