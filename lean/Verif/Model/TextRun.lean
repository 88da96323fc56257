import Verif.Base.Hex
import Verif.Model.CharMap
/-
One run of text: its glyph codes and kerning numbers in the content stream, its measured width, and the ToUnicode
CMap (`cache_content_text.go`, `content_obj.go`, `subset_font_obj.go`, `unicode_map.go`).
-/
namespace Verif.TextRun
open Verif.TTF

/-- content_obj.go 489-506 `convertTTFUnit2PDFUnit`, `upem ≠ 0` (Go panics on a division by zero otherwise).  Go's `/`
and `%` truncate toward zero. -/
def toPdfUnit (n upem : Int) : Int :=
  if n < 0 then
    let rest1 := n.tmod upem
    let storrest := 1000 * rest1
    let ledd2 := if storrest ≠ 0 then rest1.tdiv storrest else 0
    Int.neg (((-1000) * n).tdiv upem - ledd2)
  else (n.tdiv upem) * 1000 + ((n.tmod upem) * 1000).tdiv upem

/-- What drawing and measuring need from a subset font.  `kern` is the function `kern` of cache_content_text.go
454-472 (kerning table entry or 0, then the user's override): left rune, right rune, left glyph, right glyph. -/
structure RunFont where
  unitsPerEm : Nat
  nHMetrics : Nat
  widths : List Nat
  map : CharMap
  useKerning : Bool
  kern : Nat → Nat → Nat → Nat → Int

/-- subset_font_obj.go 301-314 `GlyphIndexToPdfWidth`.  `numberOfHMetrics - 1` wraps around when there are no
metrics, and the slice access panics, as does one outside `widths`. -/
def glyphWidth (f : RunFont) (g : Nat) : Res Nat :=
  let g' := if g ≥ f.nHMetrics then f.nHMetrics - 1 else g
  if f.nHMetrics = 0 then .error .panic
  else match f.widths[g']? with
    | none => .error .panic
    | some w => if f.unitsPerEm = 1000 then .ok w
      else if f.unitsPerEm = 0 then .error .panic else .ok (w * 1000 / f.unitsPerEm)

/-- UTF-8 length of a rune (what `range` over a string advances by; text never contains invalid UTF-8 here since it is
the result of `string([]rune)`). -/
def utf8Len (r : Nat) : Nat := if r < 0x80 then 1 else if r < 0x800 then 2 else if r < 0x10000 then 3 else 4

/-- Go's `for i, r := range text`: byte offset and rune. -/
def withIndex : Nat → List Nat → List (Nat × Nat)
  | _, [] => []
  | i, r :: rest => (i, r) :: withIndex (i + utf8Len r) rest

/-- One element of a TJ array. -/
inductive TJ where
  | glyph (g : Nat)
  | adj (n : Int)
  deriving DecidableEq, Repr

/-- Kerning before a character: cache_content_text.go 257-264 and 417-421.  `left` is the last drawn rune with its
glyph, `(0, 0)` before the first. -/
def kernBefore (f : RunFont) (i r g : Nat) (left : Nat × Nat) : Int :=
  if i > 0 ∧ f.useKerning = true then toPdfUnit (f.kern left.1 r left.2 g) f.unitsPerEm else 0

/-- Justification: `(tjAdjust, firstNonSpace, lastNonSpace)` when it applies. -/
abbrev Just := Option (Int × Int × Int)

/-- cache_content_text.go 248-274, the loop of `write` that fills the TJ array. -/
def tjLoop (f : RunFont) (j : Just) : Nat × Nat → List (Nat × Nat) → List TJ
  | _, [] => []
  | left, (i, r) :: rest =>
    match f.map.val r with
    | none => tjLoop f j left rest
    | some g =>
      let k := kernBefore f i r g left
      (if k ≠ 0 then [TJ.adj (-k)] else []) ++ [TJ.glyph g] ++
      (match j with
       | some (adj, first, last) => if r = 32 ∧ (i : Int) > first ∧ (i : Int) < last then [TJ.adj adj] else []
       | none => []) ++
      tjLoop f j (r, g) rest

/-- The bytes written for one element: `%04X` for a glyph, `>%d<` for a number. -/
def tjElem : TJ → Bytes
  | .glyph g => padL 4 (hexUp g)
  | .adj n => [62] ++ decInt n ++ [60]

/-- cache_content_text.go 226, 248-276: `[<` ... `>] TJ\n`. -/
def tjBytes (l : List TJ) : Bytes := lit "[<" ++ l.flatMap tjElem ++ lit ">] TJ\n"

/-- cache_content_text.go 403-435, the loop of `createContent`: the sum of advances in thousandths.  `space` is
`spaceWidthPdfUnit`, which does not depend on the character. -/
def sumWidth (f : RunFont) (space : Int) : Nat × Nat → List (Nat × Nat) → Res Int
  | _, [] => .ok 0
  | left, (i, r) :: rest =>
    match f.map.val r with
    | none => sumWidth f space left rest
    | some g =>
      match glyphWidth f g with
      | .error e => .error e
      | .ok w =>
        match sumWidth f space (r, g) rest with
        | .error e => .error e
        | .ok s => .ok (w + kernBefore f i r g left + space + s)

/-! ### ToUnicode -/

/-- unicode_map.go 45-62: smallest and largest glyph number, starting from 65536 and -1. -/
def lowHigh (vals : List Nat) : Nat × Int :=
  vals.foldl (fun a v => (if v < a.1 then v else a.1, if (v : Int) > a.2 then (v : Int) else a.2)) (65536, -1)

/-- unicode_map.go 124-135 `runeByIndex`: the first rune with the glyph (0 if none). -/
def runeByIndex (pairs : List (Nat × Nat)) (g : Nat) : Nat :=
  match pairs.find? fun p => p.1 == g with
  | some p => p.2
  | none => 0

/-- unicode_map.go 51-62, 111-114: glyph and rune for every key, in order. -/
def glyphRunes (m : CharMap) : List (Nat × Nat) := m.keys.map fun k => ((m.val k).getD 0, k)

/-- unicode_map.go 74-77: one line `<gggg><gggg><uuuu>`. -/
def bfLine (pairs : List (Nat × Nat)) (g : Nat) : Bytes :=
  let h := padL 4 (hexUp g)
  let u := padL 4 (hexUp (runeByIndex pairs g))
  [60] ++ h ++ [62, 60] ++ h ++ [62, 60] ++ u ++ [62, 10]

/-- Go's `%04X` of a possibly negative number: only -1 occurs (`hiIndex` of an empty font), printed `-001`. -/
def hex4Int (n : Int) : Bytes := match n with
  | .ofNat k => padL 4 (hexUp k)
  | .negSucc k => [45] ++ padL 3 (hexUp (k + 1))

/-- unicode_map.go 39-80: the CMap stream before encryption. -/
def toUnicode (m : CharMap) : Bytes :=
  let pairs := glyphRunes m
  let lh := lowHigh (pairs.map (·.1))
  lit "/CIDInit /ProcSet findresource begin\n" ++ lit "12 dict begin\n" ++ lit "begincmap\n" ++
  lit "/CIDSystemInfo << /Registry (Adobe)/Ordering (UCS)/Supplement 0>> def\n" ++
  lit "/CMapName /Adobe-Identity-UCS def /CMapType 2 def\n" ++
  lit "1 begincodespacerange\n" ++
  ([60] ++ padL 4 (hexUp lh.1) ++ [62, 60] ++ hex4Int lh.2 ++ [62, 10]) ++
  lit "endcodespacerange\n" ++
  (dec pairs.length ++ lit " beginbfrange\n") ++
  (pairs.map (·.1)).flatMap (bfLine pairs) ++
  lit "endbfrange\n" ++
  lit "endcmap CMapName currentdict /CMap defineresource pop end end" ++ lit "\n"

end Verif.TextRun
