import Verif.Spec.FontFile
/-
Font files that are complete: everything an embedder has to read of them is there.
-/
namespace Verif.FontFile
open Verif.CmapSpec

/-- A list of component records starts at `off` and ends inside the file: every record has its flags and its glyph
number, the last one has no "more components" flag. -/
inductive Records (d : Bytes) : Nat → Prop
  | last {off fl c : Nat} : U16 d off fl → U16 d (off + 2) c → fl.testBit 5 = false → Records d off
  | more {off fl c : Nat} : U16 d off fl → U16 d (off + 2) c → fl.testBit 5 = true →
      Records d (off + 4 + argBytes fl) → Records d off

/-- A font file with everything in it: at least one glyph; the tables copied as they are lie inside the file, with
their padding; an outline that is not empty has its number of contours, and its component records if it is a composite;
components are glyphs of the font. -/
structure Complete (d : Bytes) : Prop where
  someGlyph : ∀ n, NumGlyphs d n → 0 < n
  copied : ∀ tag ∈ ["cvt ", "fpgm", "head", "hhea", "hmtx", "maxp", "prep"], ∀ o l, HasTable d (lit tag) o l →
    o + pad4 l ≤ d.length
  outlines : ∀ go gl g a b, HasTable d (lit "glyf") go gl → Loca d g a → Loca d (g + 1) b → a ≠ b →
    ∃ n, U16 d (go + a) n ∧ (0x8000 ≤ n → Records d (go + a + 10))
  components : ∀ n, NumGlyphs d n → ∀ g c, Component d g c → c < n

end Verif.FontFile
