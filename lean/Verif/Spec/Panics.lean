import Verif.Model.Typeset
import Verif.Spec.Typeset
/- What a call needs: a current font, a page. -/
namespace Verif.Typeset

/-- Calls that draw or measure text (also the empty text). -/
def needsFont : Call → Bool
  | .text _ | .cell _ _ | .cellWithOption _ _ _ _ | .measure _ => true
  | .addFont _ _ _ | .other _ => false

/-- Calls that read the size of the page or change the page.  Colours, line styles, saving and restoring the graphics state, RotateReset and
SetColorSpace do not; a picture that cannot be decoded is refused before. -/
def needsPage : Call → Bool
  | .text _ | .cell _ _ | .cellWithOption _ _ _ _ => true
  | .addFont _ _ _ | .measure _ => false
  | .other c => match c with
    | .plain (.rectLower _ _ _ _) | .plain (.rectUpper _ _ _ _) | .plain (.oval _ _ _ _) | .plain (.curve _ _ _ _ _) | .plain (.clipPolygon _)
    | .plain (.rotate _ _ _) | .plain (.template _ _ _ _ _) => true
    | .line _ _ _ _ | .polygon _ _ | .rectLowerOpt _ _ _ _ _ _ | .rectUpperOpt _ _ _ _ _ _ => true
    | .object .externalLink | .object (.internalLink _) => true
    | .image img _ | .imageOpt img _ _ none => img.parsed.isSome
    | .imageOpt _ _ _ (some m) => m.1.parsed.isSome
    | _ => false

end Verif.Typeset
