import Verif.Spec.Used
/-
Independent specification: what the calls of a program draw, in the caller's own terms, on the canvas of Spec/Canvas.lean.  The
caller does not know the numbers of resources: figures are compared without them (what the resources are is in Spec/Used.lean and
Spec/Shows.lean).
-/
namespace Verif.Program
open Paint (Colour)
open Canvas (Figure)

/-- What a call asks the canvas for; the numbers of fonts, images, colour spaces and graphics states are left 0 or empty. -/
def request : Call → Option Content.Call
  | .object _ => none
  | .plain c => some c
  | .addPage h => some (.addPage h)
  | .setFont _ style size => some (.setFont 0 style size)
  | .setTransparency _ | .clearTransparency => some (.setTransparency none)
  | .setColourSpace _ => some (.setColourSpace 0)
  | .text t => some (.text t)
  | .cell r t => some (.cell r t)
  | .cellWithOption r t opt _ => some (.cellWithOption r t { opt with ext := [] } none)
  | .line x1 y1 x2 y2 => some (.line x1 y1 x2 y2)
  | .polygon pts st => some (.polygon pts st)
  | .rectLowerOpt x y w h st _ => some (.rectLowerOpt x y w h st none)
  | .rectUpperOpt x y w h st _ => some (.rectUpperOpt x y w h st none)
  /- Image has no options: the picture is drawn upright, whole -/
  | .image _ i => some (.image { withMask := false, maskAngle := 0, imageAngle := 0, verticalFlip := false, horizontalFlip := false, index := 0, x := i.x, y := i.y, pageHeight := i.pageHeight, rect := i.rect, crop := none, ext := [] })
  /- a picture without mask is turned by its own angle, one with a mask by both angles -/
  | .imageOpt _ i _ none => some (.image { i with withMask := false, maskAngle := 0, index := 0, ext := [] })
  | .imageOpt _ i _ (some (_, m, _)) => some (.image { i with withMask := true, maskAngle := m.imageAngle, index := 0, ext := [] })

/-- The requests of the calls that return without an error. -/
def requests (e : Content.Env) : St → List Call → List Content.Call
  | _, [] => []
  | s, c :: rest => (if succeeds s c then (request c).toList else []) ++
    match step e s c with
    | some s' => requests e s' rest
    | none => []

def bareColour : Colour → Colour
  | .named _ => .named 0
  | c => c

/-- The figure without the numbers of resources. -/
def bare : Figure → Figure
  | .path k p pen _ => .path k p { pen with stroke := bareColour pen.stroke } []
  | .image _ m _ => .image 0 m []
  | .template n m => .template n m

end Verif.Program
