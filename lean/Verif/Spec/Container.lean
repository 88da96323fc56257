import Verif.Model.Container
/- Small specification: what a document shows of its fonts. -/
namespace Verif.ContainerSpec
open Container TTF
variable {F K : Type}

/-- A font of a document: file, family, kerning function, the characters used (with their glyphs) and the pending runes. -/
structure FontView (F K : Type) where
  file : F
  src : CharSource
  family : Nat
  kern : Option K
  used : Option CharMap
  pending : List Nat

/-- A document: its fonts and the texts its calls gave back. -/
structure DocView (F K : Type) where
  fonts : List (FontView F K)
  log : List (Res (List Nat))

def fontView (w : World F K) (f : FontObj F K) : FontView F K :=
  ⟨f.file, f.src, f.family, f.kern, f.charMap.map w.maps, readBuff w f⟩

def view (w : World F K) (d : Nat) : DocView F K := ⟨(w.docs d).fonts.map (fontView w), (w.docs d).log⟩

/-- Calls on document `d` and on the container. -/
def concerns (d : Nat) (op : Op F K) : Bool := op.doc == none || op.doc == some d

end Verif.ContainerSpec
