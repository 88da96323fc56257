import Verif.Model.Options
/- Independent specification: what the letters of an option mean. -/
namespace Verif.Options

/-- What is used of Unicode: which characters have a given capital (the dotless i among them), and that blanks and no letters used here are spaces. -/
structure Alphabet (upper : Char → Char) (space : Char → Bool) : Prop where
  B : ∀ c, upper c = 'B' ↔ c = 'b' ∨ c = 'B'
  I : ∀ c, upper c = 'I' ↔ c = 'i' ∨ c = 'I' ∨ c = 'ı'
  U : ∀ c, upper c = 'U' ↔ c = 'u' ∨ c = 'U'
  F : ∀ c, upper c = 'F' ↔ c = 'f' ∨ c = 'F'
  D : ∀ c, upper c = 'D' ↔ c = 'd' ∨ c = 'D'
  blank : space ' ' = true
  letters : ∀ c ∈ ['f', 'F', 'd', 'D'], space c = false

/-- The names of the blend modes (PDF 32000-1, tables 136 and 137), as the library wants them: with a slash. -/
def blendNames : List String :=
  ["/Normal", "/Multiply", "/Screen", "/Overlay", "/Darken", "/Lighten", "/ColorDodge", "/ColorBurn", "/HardLight", "/SoftLight", "/Difference", "/Exclusion",
    "/Hue", "/Saturation", "/Color", "/Luminosity"]

end Verif.Options
