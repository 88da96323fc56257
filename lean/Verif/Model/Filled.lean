import Verif.Model.TextRun
import Mathlib.Logic.Function.Basic
/-
Which characters of a placeholder's text are drawn: PlaceHolderText and FillInPlaceHoldText with the maps of the fonts, between calls that draw
and measure text.  (Where the text stands is in Model/PlaceHolder.lean, which takes the maps as they are.)
Simplifications: fonts are given by number; pages are left out (the text objects of all pages are one list); calls that add characters to a font and draw
nothing (measuring) are drawings of an object nobody looks at; the callback for missing characters is a function of the character.
-/
namespace Verif.Filled
open TTF TextRun

/-- What a font brings: its character table, and `OnGlyphNotFoundSubstitute`, which always exists (subset_font_obj.go 72-77). -/
structure Face where
  cmap : Cmap
  subst : Nat → Nat

def Face.source (f : Face) : CharSource := ⟨f.cmap, some f.subst⟩

/-- A text object (cache_content_text.go 17-41): its font, its text, and the name if it is a placeholder. -/
structure Item where
  font : Nat
  text : List Nat
  holder : Option (List UInt8)
  deriving DecidableEq, Repr

/-- The characters used of each font, and the text objects in the order they were made. -/
structure St where
  maps : Nat → CharMap := fun _ => CharMap.empty
  items : List Item := []

inductive Call where
  /-- Text, Cell and the like with the font `font` -/
  | text (font : Nat) (t : List Nat)
  /-- PlaceHolderText with the font `font` -/
  | hold (font : Nat) (name : List UInt8)
  | fill (name : List UInt8) (t : List Nat)

/-- The loop of `FillInPlaceHoldText` (gopdf.go 1447-1473): `AddChars` on the placeholder's font (1456), whose results are not looked at, then
the text as given (1457).  The placeholders of a name are visited in the order they were made, like the entries of `placeHolderTexts`.
`none`: a panic, the only way `AddChars` fails for a font of these (`glyphOf` returns no other error). -/
def fillItems (faces : Nat → Face) (name : List UInt8) (t : List Nat) : (Nat → CharMap) → List Item → Option ((Nat → CharMap) × List Item)
  | maps, [] => some (maps, [])
  | maps, i :: rest =>
    if i.holder = some name then
      match addChars (faces i.font).source (maps i.font) t with
      | (m, .ok _) => (fillItems faces name t (Function.update maps i.font m) rest).map fun p => (p.1, { i with text := t } :: p.2)
      | (_, .error _) => none
    else (fillItems faces name t maps rest).map fun p => (p.1, i :: p.2)

/-- Text (gopdf.go 1105-1118) draws what `AddChars` returns; PlaceHolderText (gopdf.go 1403-1435, content_obj.go 118-139) makes an object without
text; FillInPlaceHoldText (gopdf.go 1440-1476; an unknown name is an error and changes nothing). -/
def step (faces : Nat → Face) (s : St) : Call → Option St
  | .text f t =>
    match addChars (faces f).source (s.maps f) t with
    | (m, .ok out) => some { maps := Function.update s.maps f m, items := s.items ++ [⟨f, out, none⟩] }
    | (_, .error _) => none
  | .hold f name => some { s with items := s.items ++ [⟨f, [], some name⟩] }
  | .fill name t => (fillItems faces name t s.maps s.items).map fun p => ⟨p.1, p.2⟩

def steps (faces : Nat → Face) : St → List Call → Option St
  | s, [] => some s
  | s, c :: rest => (step faces s c).bind fun s' => steps faces s' rest

/-- What is written for a text object at the end (cache_content_text.go 226-276), with the map the font has then.  `base` is the font apart from
its map. -/
def written (base : Nat → RunFont) (s : St) (i : Item) : Bytes :=
  tjBytes (tjLoop { base i.font with map := s.maps i.font } none (0, 0) (withIndex 0 i.text))

end Verif.Filled
