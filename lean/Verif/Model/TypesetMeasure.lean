import Verif.Model.Measure
import Verif.Model.Typeset
/- What the measuring calls return, in the state of a program. -/
namespace Verif.Typeset

/-- `MeasureTextWidth` (gopdf.go 1909-1921): the characters are added to the current font, then measured in it. -/
def St.measureWidth (base : Content.Env) (s : St) (t : List Nat) : Option ℚ :=
  (s.addChars t).bind fun p => Content.measureTextWidth (St.env base { s with fonts := p.1 }) s.prog.content.cur p.2

/-- `MeasureCellHeightByText` (gopdf.go 1924-1936). -/
def St.measureHeight (base : Content.Env) (s : St) (t : List Nat) : Option ℚ :=
  (s.addChars t).bind fun p => Content.measureCellHeight (St.env base { s with fonts := p.1 }) s.prog.content.cur p.2

/-- `IsCurrFontContainGlyph` (gopdf.go 2460-2478), for a non-negative rune.  `none`: a panic or another error of
`CharCodeToGlyphIndex` (subset_font_obj.go 284-298). -/
def St.containsGlyph (s : St) (r : Nat) : Option Bool :=
  match s.prog.doc.curFont with
  | none => some false
  | some (i, _) => match s.fonts i with
    | none => none
    | some l => match TTF.glyphOf l.info.font.cmap r with
      | .error .notFound => some false
      | .error _ => none
      | .ok g => if g = 0 then some false else some true

end Verif.Typeset
