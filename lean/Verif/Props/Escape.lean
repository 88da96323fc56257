import Verif.Lemmas.Escape
/- C16: literal strings. -/
namespace Verif.Props
open Escape LitString

/-- **C16** Whatever bytes a string contains and whatever follows it, reading the written form `( … )` as a PDF
literal string gives back exactly those bytes and leaves exactly what follows. -/
theorem escape_roundtrip (s rest : Bytes) :
    readString (lit "(" ++ escape s ++ lit ")" ++ rest) = some (s, rest) := by
  have e1 : lit "(" = [40] := by decide
  have e2 : lit ")" = [41] := by decide
  rw [e1, e2]
  have e : [40] ++ escape s ++ [41] ++ rest = 40 :: (escape s ++ 41 :: rest) := by simp
  rw [e]
  exact read_escape s rest

/-- **C16** consequently different strings are written differently. -/
theorem escape_injective (s t : Bytes) (h : escape s = escape t) : s = t := by
  have h1 := escape_roundtrip s []
  rw [h, escape_roundtrip t []] at h1
  simpa using h1.symm

example : escape (lit "a\\(b\r)") = lit "a\\\\\\(b\\r\\)" := by decide

end Verif.Props
