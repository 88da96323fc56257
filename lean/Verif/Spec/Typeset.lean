import Verif.Model.Typeset
import Verif.Spec.FontFile
import Verif.Spec.Viewer
/-
Independent specification: the text a program writes in terms of the caller's font files, and what it means that a viewer draws a
code of the file as a glyph of such a font.
-/
namespace Verif.Typeset
open CmapSpec FontFile PdfObject FileReader

/-! ### What the caller asks for -/

/-- A character to be drawn in a font. -/
structure Wish where
  face : Face
  char : Nat

/-- The fonts added so far: family, style, font. -/
abbrev Registered := List (Nat × Nat × Face)

/-- AddTTFFont accepts the font. -/
def accepted (f : Face) : Bool := match TTF.load f.file f.useKerning with | .ok _ => true | .error _ => false

/-- The font SetFont selects: the first that was added under the family and the style; underlining (4) is no style of a font. -/
def pick (reg : Registered) (family style : Nat) : Option Face :=
  (reg.find? fun x => x.1 = family ∧ x.2.1 = if style / 4 % 2 = 1 then style - 4 else style).map (·.2.2)

/-- The text of a call. -/
def texts : Call → List Nat
  | .text t | .cell _ t | .cellWithOption _ t _ _ => t
  | _ => []

def registerFont (reg : Registered) : Call → Registered
  | .addFont f st face => if accepted face then reg ++ [(f, st, face)] else reg
  | _ => reg

/-- SetFont changes the current font if it finds one. -/
def selectFont (reg : Registered) (cur : Option Face) : Call → Option Face
  | .other (.setFont f st _) => match pick reg f st with | some x => some x | none => cur
  | _ => cur

def startsPage : Call → Bool
  | .other c => Program.isPage c
  | _ => false

/-- The characters written on page `k` (`n` pages are there), each with the font selected at that time. -/
def wishes (k : Nat) : (n : Nat) → Registered → Option Face → List Call → List Wish
  | _, _, _, [] => []
  | n, reg, cur, c :: rest =>
    (if n = k then (match cur with | some f => (texts c).map fun r => ⟨f, r⟩ | none => []) else []) ++
    wishes k (if startsPage c then n + 1 else n) (registerFont reg c) (selectFont reg cur c) rest

/-! ### The glyph of a character -/

/-- The font file gives the character a glyph: by the format 4 subtable of the encoding record for the Basic Multilingual Plane, by
the format 12 subtable of the record for all of Unicode beyond it (OpenType, `cmap`). -/
def Gives (d : Bytes) (r g : Nat) : Prop :=
  ∃ cm cl, HasTable d (lit "cmap") cm cl ∧
    ((r ≤ 0xFFFF ∧ ∃ off sc, HasRecord d cm 3 1 off ∧ IsFormat4 d (cm + off) sc ∧ Maps4 d (cm + off) sc r g) ∨
     (0xFFFF < r ∧ ∃ off n, HasRecord d cm 3 10 off ∧ U16 d (cm + off) 12 ∧ U32 d (cm + off + 12) n ∧ Maps12 d (cm + off) n r g))

/-- The `cmap` table is well formed: at most one record of each of the two encodings, and a well-formed format 4 subtable. -/
structure GoodCmap (d : Bytes) : Prop where
  one : ∀ cm cl e a b, HasTable d (lit "cmap") cm cl → HasRecord d cm 3 e a → HasRecord d cm 3 e b → a = b
  format4 : ∀ cm cl off sc, HasTable d (lit "cmap") cm cl → HasRecord d cm 3 1 off → IsFormat4 d (cm + off) sc → WellFormed4 d (cm + off) sc

/-- The glyph that stands for a character: the font's own; else the one of the substitute; else glyph 0. -/
inductive Stands (f : Face) (r : Nat) : Nat → Prop
  | own {g : Nat} : Gives f.file r g → Stands f r g
  | substitute {g : Nat} : (∀ x, ¬ Gives f.file r x) → Gives f.file (f.subst r) g → Stands f r g
  | missing : (∀ x, ¬ Gives f.file r x) → (∀ x, ¬ Gives f.file (f.subst r) x) → Stands f r 0

/-! ### Widths -/

/-- Units per em (`head`). -/
def UnitsPerEm (d : Bytes) (u : Nat) : Prop := ∃ h hl, HasTable d (lit "head") h hl ∧ U16 d (h + 18) u

/-- The advance width of a glyph in units of the font: its entry in `hmtx`, or the last entry (`hhea` gives the number of entries). -/
def Advance (d : Bytes) (g w : Nat) : Prop :=
  ∃ hh hl m ml n, HasTable d (lit "hhea") hh hl ∧ U16 d (hh + 34) n ∧ 0 < n ∧ HasTable d (lit "hmtx") m ml ∧ U16 d (m + 4 * min g (n - 1)) w

/-- ... and in thousandths of an em, rounded down. -/
def PdfWidth (d : Bytes) (g v : Nat) : Prop := ∃ u w, UnitsPerEm d u ∧ Advance d g w ∧ v = w * 1000 / u

/-! ### What is assumed of a font -/

/-- A font whose file is well formed (outlines and character map), whose character map gives glyphs that exist; the substitute of a
substitute is itself (true of the default, which is a space whatever is missing). -/
structure GoodFace (f : Face) : Prop where
  file : WellFormed f.file
  cmap : GoodCmap f.file
  em : ∀ u, UnitsPerEm f.file u → u ≠ 0
  glyphs : ∀ n, NumGlyphs f.file n → 0 < n ∧ ∀ r g, Gives f.file r g → g < n
  again : ∀ r, f.subst (f.subst r) = f.subst r

/-! ### What a viewer draws -/

/-- In the file, code `p.2` shown with font number `p.1` of the page is drawn as glyph `g` of the font `font`: the font is a
composite font with two-byte codes that are glyph numbers (Identity-H, no other map from CIDs to glyphs: ISO 32000-1 §9.7.4.2,
9.7.5.2), in its font program the code has the outline of the glyph - also the glyphs it is composed of have theirs -, and in its
list of widths the code has the width of the glyph. -/
def DrawsAs (c : Decoder) (file : Bytes) (page : Val) (p : Nat × Nat) (font : Bytes) (g : Nat) : Prop :=
  ∃ m v data cid program ws w, resource file page "Font" (lit "F" ++ dec p.1) = some m ∧ object file m = some (v, data) ∧
    v.get (lit "Subtype") = some (.name (lit "Type0")) ∧ v.get (lit "Encoding") = some (.name (lit "Identity-H")) ∧
    descendant file m = some cid ∧ cid.get (lit "CIDToGIDMap") = none ∧
    fontProgram c file m = some program ∧ (∃ o, Outline font g o) ∧ (∀ o, Outline program p.2 o ↔ Outline font g o) ∧
    (∀ n x o, NumGlyphs font n → Component font g x → x < n → (Outline program x o ↔ Outline font x o)) ∧
    fontWidths file m = some ws ∧ PdfWidth font g w ∧ (p.2, w) ∈ ws ∧ ∀ w', (p.2, w') ∈ ws → w' = w

end Verif.Typeset
