import Verif.Spec.Typeset
/-
Independent specification: the numbers of a font file (signed values, metrics, kerning pairs), the width of a text in a font, and
the description of a font in a PDF file.
-/
namespace Verif.Typeset
open CmapSpec FontFile PdfObject FileReader

/-- The signed 16-bit number at offset `p` is `v`. -/
def I16 (d : Bytes) (p : Nat) (v : Int) : Prop := ∃ x, U16 d p x ∧ v = if x < 32768 then (x : Int) else x - 65536

/-- A signed number in a table of the font. -/
def Metric (d : Bytes) (tag : String) (off : Nat) (v : Int) : Prop := ∃ p l, HasTable d (lit tag) p l ∧ I16 d (p + off) v

/-- ... an unsigned one. -/
def Unsigned (d : Bytes) (tag : String) (off v : Nat) : Prop := ∃ p l, HasTable d (lit tag) p l ∧ U16 d (p + off) v

/-! ### Kerning -/

/-- The file has a kerning table (version 0) with exactly one subtable. -/
def OneKern (d : Bytes) (k : Nat) : Prop := ∃ kl, HasTable d (lit "kern") k kl ∧ U16 d (k + 2) 1

/-- Entry `i` of the subtable (OpenType, `kern`, format 0): left glyph, right glyph, value. -/
def KernEntry (d : Bytes) (k i l r : Nat) (v : Int) : Prop :=
  ∃ n, U16 d (k + 10) n ∧ i < n ∧ U16 d (k + 18 + 6 * i) l ∧ U16 d (k + 18 + 6 * i + 2) r ∧ I16 d (k + 18 + 6 * i + 4) v

/-- No kerning table, or one with one subtable in which no pair has two values. -/
structure GoodKern (d : Bytes) : Prop where
  one : ∀ k kl, HasTable d (lit "kern") k kl → OneKern d k
  unique : ∀ k i j l r v w, OneKern d k → KernEntry d k i l r v → KernEntry d k j l r w → v = w

/-- The kerning of a pair of glyphs, in units of the font: what the table says, 0 if it says nothing. -/
def Kerning (d : Bytes) (l r : Nat) (v : Int) : Prop :=
  (∃ k i, OneKern d k ∧ KernEntry d k i l r v) ∨ ((∀ k i w, OneKern d k → ¬ KernEntry d k i l r w) ∧ v = 0)

/-! ### The width of a text -/

/-- The character drawn for a character: itself, or its substitute. -/
def DrawnAs (f : Face) (r r' : Nat) : Prop := ((∃ g, Gives f.file r g) ∧ r' = r) ∨ ((∀ g, ¬ Gives f.file r g) ∧ r' = f.subst r)

/-- The kerning, in thousandths of an em toward 0, before a character after another (each with its glyph): what the caller's
override makes of the value of the table.  None if the caller did not ask for kerning. -/
def PairKern (f : Face) : Option (Nat × Nat) → Nat × Nat → Int → Prop
  | none, _, k => k = 0
  | some a, b, k => if f.useKerning then ∃ v u, Kerning f.file a.2 b.2 v ∧ UnitsPerEm f.file u ∧ k = (1000 * f.override a.1 b.1 a.2 b.2 v).tdiv u else k = 0

/-- The width of a text in thousandths of the font size: for every character the width of its glyph, the kerning with the
character before, and `space` for the character spacing. -/
inductive Measures (f : Face) (space : Int) : Option (Nat × Nat) → List Nat → Int → Prop
  | nil {left : Option (Nat × Nat)} : Measures f space left [] 0
  | cons {left : Option (Nat × Nat)} {r r' g w : Nat} {k n : Int} {rest : List Nat} : DrawnAs f r r' → Stands f r g → PdfWidth f.file g w →
      PairKern f left (r', g) k → Measures f space (some (r', g)) rest n → Measures f space left (r :: rest) (w + k + space + n)

/-- What the caller has chosen for text: fonts added, current font, size, character spacing (in the unit of the document). -/
structure Setting where
  reg : Registered := []
  face : Option Face := none
  size : ℚ := 0
  spacing : ℚ := 0

/-- ... after a call.  SetFont changes nothing if there is no such font. -/
def Setting.after (s : Setting) (c : Call) : Setting where
  reg := registerFont s.reg c
  face := selectFont s.reg s.face c
  size := match c with
    | .other (.setFont f st size) => if (pick s.reg f st).isSome then size else s.size
    | .other (.plain (.setFontSize size)) => size
    | _ => s.size
  spacing := match c with
    | .other (.plain (.setCharSpacing v)) => v
    | _ => s.spacing

/-- ... after a program. -/
def setting (prog : List Call) : Setting := prog.foldl Setting.after {}

/-- `space` thousandths of the size stand for a character spacing in points: none for none; else less by at most one thousandth of
the size and one unit of the font. -/
def SpaceFor (d : Bytes) (size spacing : ℚ) (space : Int) : Prop :=
  (spacing = 0 → space = 0) ∧
  (0 < size → 0 ≤ spacing → ∃ u, UnitsPerEm d u ∧ space * (size / 1000) ≤ spacing ∧ spacing - space * (size / 1000) < size / 1000 + size / u)

/-! ### The font descriptor -/

/-- `n` is `v` units of the font in thousandths of an em, rounded to the nearest. -/
def Rounded (u : Nat) (v n : Int) : Prop := |(v : ℚ) * 1000 / u - n| ≤ 1 / 2

/-- The entry of a dictionary is that number. -/
def Entry (v : Val) (key : String) (u : Nat) (x : Int) : Prop := ∃ n : Int, v.get (lit key) = some (.num n) ∧ Rounded u x n

/-- The font numbered `p` on the page has a descriptor that describes the font file: bounding box (`head`), italic angle (integer
part, `post`), height of capitals (`OS/2`; versions 0 and 1 do not give it, then the ascender of `hhea`), height of small letters
(if given), ascent and descent - those of `hhea` if the typographical value is 0, else those for Windows. -/
def Described (file : Bytes) (page : Val) (p : Nat) (font : Bytes) : Prop :=
  ∃ m cid n v data u, resource file page "Font" (lit "F" ++ dec p) = some m ∧ descendant file m = some cid ∧
    cid.get (lit "FontDescriptor") = some (.ref n) ∧ PdfObject.object file n = some (v, data) ∧ UnitsPerEm font u ∧
    (∃ x0 y0 x1 y1, Metric font "head" 36 x0 ∧ Metric font "head" 38 y0 ∧ Metric font "head" 40 x1 ∧ Metric font "head" 42 y1 ∧
      ∃ a b c d : Int, v.get (lit "FontBBox") = some (.arr [.num a, .num b, .num c, .num d]) ∧
        Rounded u x0 a ∧ Rounded u y0 b ∧ Rounded u x1 c ∧ Rounded u y1 d) ∧
    (∃ z, Metric font "post" 4 z ∧ v.get (lit "ItalicAngle") = some (.num z)) ∧
    ∃ ver, Unsigned font "OS/2" 0 ver ∧
      (∃ c, (if 2 ≤ ver then Metric font "OS/2" 88 c else Metric font "hhea" 4 c) ∧ Entry v "CapHeight" u c) ∧
      (2 ≤ ver → ∃ x, Metric font "OS/2" 86 x ∧ (x ≠ 0 → Entry v "XHeight" u x)) ∧
      (∃ t, Metric font "OS/2" 68 t ∧ ∃ a, (if t = 0 then Metric font "hhea" 4 a else ∃ w, Unsigned font "OS/2" 74 w ∧ a = w) ∧ Entry v "Ascent" u a) ∧
      (∃ t h, Metric font "OS/2" 70 t ∧ Metric font "hhea" 6 h ∧
        ∃ a, (if t = 0 then a = h else ∃ w : Nat, Unsigned font "OS/2" 76 w ∧ a = if h < 0 then -(w : Int) else w) ∧ Entry v "Descent" u a)

end Verif.Typeset
