import Verif.Base.Bytes
namespace Verif

/-- A stream object (ISO 32000-1 §7.3.8): a dictionary with a `/Length` entry, `stream`, the data, an optional
end-of-line, `endstream`. -/
def StreamObject (body : Bytes) (declared : Nat) (data : Bytes) : Prop :=
  ∃ dict1 dict2 eol, body = dict1 ++ lit "/Length " ++ dec declared ++ lit "\n" ++ dict2 ++ lit ">>\nstream\n" ++
    data ++ eol ++ lit "endstream\n" ∧ ∀ b ∈ eol, b = 10

end Verif
