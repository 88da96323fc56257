import Verif.Spec.FontFile
/-
Independent specification: what a font file must contain for AddTTFFont to take it (OpenType specification: table directory, `head`,
`hhea`, `maxp`, `hmtx`, `cmap`, `name`, `OS/2`, `post`, `loca`, `kern`).
-/
namespace Verif.FontFile
open Verif.CmapSpec

/-- The `n` bytes at offset `p` lie inside the file. -/
def Inside (d : Bytes) (p n : Nat) : Prop := n = 0 ∨ p + n ≤ d.length

/-- The file has the table, and at least the first `n` bytes from its beginning are in the file. -/
def TableOf (d : Bytes) (tag : String) (n : Nat) : Prop := ∃ p l, HasTable d (lit tag) p l ∧ p + n ≤ d.length

/-- The file is a TrueType file (not a collection, not CFF outlines) whose directory is complete. -/
def Directory (d : Bytes) : Prop := BytesAt d 0 4 [0, 1, 0, 0] ∧ ∃ n, U16 d 4 n ∧ Inside d 12 (16 * n)

/-- `head` is there with its magic number. -/
def HasHead (d : Bytes) : Prop := ∃ p l, HasTable d (lit "head") p l ∧ U32 d (p + 12) 0x5F0F3CF5 ∧ p + 52 ≤ d.length

/-- `hhea`, `maxp` and `hmtx`: there is an advance width for every glyph, at least the last one given for all. -/
def HasWidths (d : Bytes) : Prop :=
  ∃ p l q m n g, HasTable d (lit "hhea") p l ∧ U16 d (p + 34) n ∧ HasTable d (lit "hmtx") q m ∧ NumGlyphs d g ∧
    (n = 0 → g = 0) ∧ Inside d q (4 * n - 2)

/-- Encoding record `i` of the cmap table at `cm`. -/
def RecordNo (d : Bytes) (cm i pid eid off : Nat) : Prop :=
  U16 d (cm + 4 + 8 * i) pid ∧ U16 d (cm + 4 + 8 * i + 2) eid ∧ U32 d (cm + 4 + 8 * i + 4) off

/-- A complete format 4 subtable at `b`: the four arrays, the glyph array as long as the length field says, and a number wherever a
segment looks one up. -/
def Complete4 (d : Bytes) (b : Nat) : Prop :=
  ∃ sc len, IsFormat4 d b sc ∧ U16 d (b + 2) len ∧ 16 + 8 * sc ≤ len ∧ (sc = 0 ∨ b + 16 + 8 * sc ≤ d.length) ∧
    Inside d (b + 16 + 8 * sc) ((len - (16 + 8 * sc)) / 2 * 2) ∧
    ∀ i s e ro, i < sc → StartCode d b sc i s → EndCode d b i e → RangeOffset d b sc i ro → ro ≠ 0 → ∀ c, s ≤ c → c ≤ e → c < 65535 →
      rangeAddr b sc i + ro + 2 * (c - s) + 2 ≤ d.length

/-- A complete format 12 subtable at `b`. -/
def Complete12 (d : Bytes) (b : Nat) : Prop := U16 d b 12 ∧ U16 d (b + 2) 0 ∧ ∃ n, U32 d (b + 12) n ∧ Inside d (b + 16) (12 * n)

/-- `cmap` has a subtable for the Basic Multilingual Plane (platform 3, encoding 1; the last such record counts), complete and in
format 4; and if it has one for all of Unicode (platform 3, encoding 10; the first counts), that is complete and in format 12. -/
def HasCmap (d : Bytes) : Prop :=
  ∃ cm cl n, HasTable d (lit "cmap") cm cl ∧ U16 d (cm + 2) n ∧ Inside d (cm + 4) (8 * n) ∧
    (∃ i off, i < n ∧ RecordNo d cm i 3 1 off ∧ off ≠ 0 ∧ (∀ j o, i < j → j < n → ¬ RecordNo d cm j 3 1 o) ∧ Complete4 d (cm + off)) ∧
    (∀ i off, i < n → RecordNo d cm i 3 10 off → (∀ j o, j < i → ¬ RecordNo d cm j 3 10 o) → Complete12 d (cm + off))

/-- Name record `i` of the table at `p`: number of the name, length, place. -/
def NameRecord (d : Bytes) (p i id len off : Nat) : Prop :=
  U16 d (p + 6 + 12 * i + 6) id ∧ U16 d (p + 6 + 12 * i + 8) len ∧ U16 d (p + 6 + 12 * i + 10) off

/-- `name` has a PostScript name (number 6), and in the first of them there is a byte other than 0 and the digit `0`. -/
def Named (d : Bytes) : Prop :=
  ∃ p l n s k len off bs, HasTable d (lit "name") p l ∧ U16 d (p + 2) n ∧ U16 d (p + 4) s ∧ k < n ∧ NameRecord d p k 6 len off ∧
    (∀ j < k, ∃ id l' o, NameRecord d p j id l' o ∧ id ≠ 6) ∧ BytesAt d (p + s + off) len bs ∧ ∃ b ∈ bs, b ≠ 0 ∧ b ≠ 48

/-- `OS/2` is there, from version 2 on with the heights of letters. -/
def HasOS2 (d : Bytes) : Prop :=
  ∃ p l v, HasTable d (lit "OS/2") p l ∧ U16 d p v ∧ p + 78 ≤ d.length ∧ (2 ≤ v → p + 90 ≤ d.length)

/-- `loca` is all in the file. -/
def HasLoca (d : Bytes) : Prop :=
  ∃ p l, HasTable d (lit "loca") p l ∧ ((ShortLoca d ∧ Inside d p (l / 2 * 2)) ∨ (LongLoca d ∧ Inside d p (l / 4 * 4)))

/-- `k` complete kerning subtables from `p`, of format 0 as the library reads it. -/
def KernSubtables (d : Bytes) : Nat → Nat → Prop
  | _, 0 => True
  | p, k + 1 => ∃ cov n, U16 d (p + 4) cov ∧ cov / 16 % 16 = 0 ∧ U16 d (p + 6) n ∧ Inside d (p + 14) (6 * n) ∧ KernSubtables d (p + 14 + 6 * n) k

/-- If there is a table `kern`, it is complete. -/
def KernComplete (d : Bytes) : Prop := ∀ p l, HasTable d (lit "kern") p l → ∃ n, U16 d (p + 2) n ∧ KernSubtables d (p + 4) n

/-- A font file the library can take; `kern`: kerning was asked for. -/
structure Acceptable (d : Bytes) (kern : Bool) : Prop where
  directory : Directory d
  head : HasHead d
  hhea : TableOf d "hhea" 36
  widths : HasWidths d
  cmap : HasCmap d
  name : Named d
  os2 : HasOS2 d
  post : TableOf d "post" 16
  loca : HasLoca d
  kerning : kern = true → KernComplete d

end Verif.FontFile
