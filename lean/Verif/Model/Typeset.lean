import Verif.Model.Embed
import Verif.Model.Objects
import Verif.Model.Program
import Verif.Model.TTFTables
/-
Fonts and text as the caller gives them: AddTTFFont takes the bytes of a font file, text is what the caller writes.  `AddChars`
chooses glyphs for it before a call draws or measures, so the map of a font grows while the program runs; the pages are written
with the maps of the end.

Simplifications:
* the substitute for a missing character and the override of kerning values (KernOverride) are functions of their arguments,
  given with the font and not changed later;
* MultiCell and the other calls that write several lines are the Cell calls they make (Model/MultiCell.lean).
-/
namespace Verif.Typeset
open TTF (CharMap CharSource Info)

/-- A font as the caller gives it to AddTTFFontDataWithOption (gopdf.go 1741-1754): the file and the options
`OnGlyphNotFoundSubstitute` (a space when not set, subset_font_obj.go 72-77, ttf_option.go), `UseKerning`; and the function of
KernOverride: left rune, right rune, left glyph, right glyph, value of the table. -/
structure Face where
  file : Bytes
  subst : Nat → Nat := fun _ => 32
  useKerning : Bool := false
  override : Nat → Nat → Nat → Nat → Int → Int := fun _ _ _ _ v => v

/-- `SubsetFontObj` (subset_font_obj.go 18-29): the face, what was read of its file, the characters used so far. -/
structure Loaded where
  face : Face
  info : Info
  map : CharMap

def Face.source (f : Face) (i : Info) : CharSource := ⟨i.font.cmap, some f.subst⟩

/-- cache_content_text.go 452-471 `kern`. -/
def Loaded.kern (l : Loaded) (lr rr lg rg : Nat) : Int :=
  l.face.override lr rr lg rg (if l.face.useKerning then l.info.kernValue lg rg else 0)

/-- What drawing reads of the font (subset_font_obj.go 301-353). -/
def Loaded.font (l : Loaded) : Content.Font where
  run := ⟨l.info.font.unitsPerEm, l.info.font.nHMetrics, l.info.font.widths, l.map, l.face.useKerning, l.kern⟩
  typoAscender := l.info.os2.typoAscender
  typoDescender := l.info.os2.typoDescender
  ascender := l.info.ascender
  descender := l.info.descender
  underlinePosition := l.info.underlinePosition
  underlineThickness := l.info.underlineThickness

/-- The library's state and the fonts, by the index of the font object. -/
structure St where
  prog : Program.St
  fonts : Nat → Option Loaded

/-- The font with a number in the resources (`/F%d`), as it is now; `base` for numbers not in use. -/
def fontNo (base : Nat → Content.Font) (rel : List Doc.RelFont) (fonts : Nat → Option Loaded) (n : Nat) : Content.Font :=
  match rel.find? fun r => r.count + 1 = n with
  | none => base n
  | some r => match fonts r.index with
    | none => base n
    | some l => l.font

/-- What drawing reads: the configuration and the fonts as they are now. -/
def St.env (base : Content.Env) (s : St) : Content.Env :=
  { base with fonts := fontNo base.fonts s.prog.doc.relFonts s.fonts }

inductive Call where
  /-- AddTTFFont and its variants -/
  | addFont (family style : Nat) (face : Face)
  | text (t : List Nat)
  | cell (rect : Option Units.Rect) (t : List Nat)
  | cellWithOption (rect : Option Units.Rect) (t : List Nat) (opt : Content.CellOption) (tr : Option Doc.Tr)
  /-- MeasureTextWidth, MeasureCellHeightByText: nothing is drawn, but the characters are added (gopdf.go 1909-1937) -/
  | measure (t : List Nat)
  | other (c : Program.Call)

/-- Calls that are not given by a constructor of their own. -/
def isOther : Program.Call → Bool
  | .object (.addFont _ _ _) | .text _ | .cell _ _ | .cellWithOption _ _ _ _ => false
  | _ => true

/-- `gp.curr.FontISubset.AddChars(text)` (subset_font_obj.go 137-165): the fonts and the text to draw.  `none`: a panic - there is
no current font, or the font's tables are indexed out of range. -/
def St.addChars (s : St) (t : List Nat) : Option ((Nat → Option Loaded) × List Nat) :=
  match s.prog.doc.curFont with
  | none => none
  | some (i, _) => match s.fonts i with
    | none => none
    | some l => match TTF.addChars (l.face.source l.info) l.map t with
      | (m, .ok out) => some (Function.update s.fonts i (some { l with map := m }), out)
      | (_, .error _) => none

/-- What a call does before it draws: the fonts after it and the call with its text as AddChars returned it.  `none`: a panic. -/
def St.prepare (s : St) : Call → Option ((Nat → Option Loaded) × Option Program.Call)
  /- gopdf.go 1741-1825; setSubsetFontObject adds four other objects first (1779-1814) -/
  | .addFont f st face => match TTF.load face.file face.useKerning with
    | .ok i => some (Function.update s.fonts (s.prog.doc.objs.length + 4) (some ⟨face, i, CharMap.empty⟩), some (.object (.addFont f st true)))
    | .error .panic => none
    | .error _ => some (s.fonts, some (.object (.addFont f st false)))
  /- gopdf.go 1105-1118, 1145-1163, 1121-1141 -/
  | .text t => (s.addChars t).map fun p => (p.1, some (.text p.2))
  | .cell r t => (s.addChars t).map fun p => (p.1, some (.cell r p.2))
  | .cellWithOption r t opt tr => (s.addChars t).map fun p => (p.1, some (.cellWithOption r p.2 opt tr))
  | .measure t => (s.addChars t).map fun p => (p.1, none)
  | .other c => if isOther c then some (s.fonts, some c) else none

/-- A call: the fonts change, then the library draws with the fonts as they are now. -/
def step (base : Content.Env) (s : St) (c : Call) : Option (St × Option Program.Call) :=
  match s.prepare c with
  | none => none
  | some (fonts, none) => some ({ s with fonts := fonts }, none)
  | some (fonts, some k) =>
    (Program.step (St.env base { s with fonts := fonts }) s.prog k).map fun p => (⟨p, fonts⟩, some k)

/-- The state after the calls, and what they drew. -/
def steps (base : Content.Env) : St → List Call → Option (St × List Program.Call)
  | s, [] => some (s, [])
  | s, c :: rest => (step base s c).bind fun p => (steps base p.1 rest).map fun q => (q.1, p.2.toList ++ q.2)

def start (prot : Bool) (marginLeft marginTop : ℚ) : St := ⟨Program.start prot marginLeft marginTop, fun _ => none⟩

/-! ### What is written of the fonts -/

/-- The font program (pdf_dictionary_obj.go 33-70): the subset for the glyphs drawn. -/
def Loaded.subset (l : Loaded) : TTF.Res Bytes := Embed.makeFont l.info.font l.map.vals

/-- `/W` (cid_font_obj.go 40-45): every glyph of the map with its width. -/
def Loaded.widths (l : Loaded) : List (Nat × Nat) :=
  l.map.vals.map fun g => (g, match TextRun.glyphWidth l.font.run g with | .ok w => w | .error _ => 0)

/-- subfont_descriptor_obj.go 22-46; `symbol` is always false (ttfparser.go 622-627), so the flags are those of a nonsymbolic
font. -/
def Loaded.desc (l : Loaded) : Objects.Desc where
  ascent := l.info.toPdf l.info.ascender
  capHeight := l.info.toPdf l.info.os2.capHeight
  descent := l.info.toPdf l.info.descender
  flags := 32
  bbox := (l.info.toPdf l.info.box.1, l.info.toPdf l.info.box.2.1, l.info.toPdf l.info.box.2.2.1, l.info.toPdf l.info.box.2.2.2)
  italicAngle := l.info.italicAngle
  xHeight := l.info.toPdf l.info.xHeight

end Verif.Typeset
