import Verif.Model.Filled
/- Small specification for the text of placeholders. -/
namespace Verif.Filled

/-- The text last filled in under a name; `t` if there is none. -/
def lastFill (name : List UInt8) (t : List Nat) : List Call → List Nat
  | [] => t
  | .fill n t' :: rest => lastFill name (if n = name then t' else t) rest
  | _ :: rest => lastFill name t rest

/-- Calls that make a text object. -/
def makes : Call → Bool
  | .fill _ _ => false
  | _ => true

/-- The glyph a font has for a character. -/
def Face.glyph (f : Face) (r : Nat) : Option Nat := (TTF.glyphOf f.cmap r).toOption

end Verif.Filled
