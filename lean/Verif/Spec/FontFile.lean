import Verif.Spec.Cmap
/-
TrueType font files (OpenType specification: table directory, `loca`, `glyf`, composite glyphs), as statements about
the bytes of a file.  Used for the original font and for the embedded subset alike.
-/
namespace Verif.FontFile
open Verif.CmapSpec

/-- The `n` bytes at offset `p` are `bs` (and lie inside the file). -/
def BytesAt (d : Bytes) (p n : Nat) (bs : Bytes) : Prop := p + n ≤ d.length ∧ bs = (d.drop p).take n

/-- The table directory has an entry `tag, checksum, offset, length`. -/
def HasEntry (d : Bytes) (tag : Bytes) (sum off len : Nat) : Prop :=
  ∃ n i, U16 d 4 n ∧ i < n ∧ (d.drop (12 + 16 * i)).take 4 = tag ∧
    U32 d (12 + 16 * i + 4) sum ∧ U32 d (12 + 16 * i + 8) off ∧ U32 d (12 + 16 * i + 12) len

/-- Directory entry number `i`. -/
def EntryNo (d : Bytes) (i : Nat) (tag : Bytes) (sum off len : Nat) : Prop :=
  (d.drop (12 + 16 * i)).take 4 = tag ∧ U32 d (12 + 16 * i + 4) sum ∧ U32 d (12 + 16 * i + 8) off ∧
    U32 d (12 + 16 * i + 12) len

/-- A length rounded up to a multiple of four. -/
def pad4 (n : Nat) : Nat := (n + 3) / 4 * 4

/-- Number of glyphs: at offset 4 of `maxp`. -/
def NumGlyphs (d : Bytes) (n : Nat) : Prop := ∃ m ml, HasTable d (lit "maxp") m ml ∧ U16 d (m + 4) n

/-- No two directory entries have the same tag. -/
def DistinctTags (d : Bytes) : Prop :=
  ∀ n i j, U16 d 4 n → i < n → j < n → (d.drop (12 + 16 * i)).take 4 = (d.drop (12 + 16 * j)).take 4 → i = j

/-- The file uses short `loca` entries: `indexToLocFormat`, at offset 50 of `head`, is 0. -/
def ShortLoca (d : Bytes) : Prop := ∃ h hl, HasTable d (lit "head") h hl ∧ U16 d (h + 50) 0

/-- ... or long ones. -/
def LongLoca (d : Bytes) : Prop := ∃ h hl x, HasTable d (lit "head") h hl ∧ U16 d (h + 50) x ∧ x ≠ 0

/-- Entry `g` of the `loca` table: an offset into `glyf`. -/
def Loca (d : Bytes) (g n : Nat) : Prop :=
  ∃ lo ll, HasTable d (lit "loca") lo ll ∧
    ((ShortLoca d ∧ 2 * g + 2 ≤ ll ∧ ∃ x, U16 d (lo + 2 * g) x ∧ n = 2 * x) ∨
     (LongLoca d ∧ 4 * g + 4 ≤ ll ∧ U32 d (lo + 4 * g) n))

/-- The outline data of glyph `g`. -/
def Outline (d : Bytes) (g : Nat) (o : Bytes) : Prop :=
  ∃ go gl a b, HasTable d (lit "glyf") go gl ∧ Loca d g a ∧ Loca d (g + 1) b ∧ a ≤ b ∧ b ≤ gl ∧
    BytesAt d (go + a) (b - a) o

/-- Number of bytes of a component record after flags and glyph number: two arguments of one or two bytes each, then
one, two or four 2-byte scale values. -/
def argBytes (flags : Nat) : Nat :=
  (if flags.testBit 0 then 4 else 2) +
  (if flags.testBit 3 then 2 else if flags.testBit 6 then 4 else if flags.testBit 7 then 8 else 0)

/-- A component record at `off` of the file, or one after it, names glyph `c`. -/
inductive InRecords (d : Bytes) : Nat → Nat → Prop
  | here {off fl c : Nat} : U16 d off fl → U16 d (off + 2) c → InRecords d off c
  | next {off fl c : Nat} : U16 d off fl → fl.testBit 5 = true → InRecords d (off + 4 + argBytes fl) c → InRecords d off c

/-- Glyph `c` is a component of glyph `g`: `g` has an outline, its number of contours is negative (a composite), and
`c` is named by a component record. -/
def Component (d : Bytes) (g c : Nat) : Prop :=
  ∃ go gl a b n, HasTable d (lit "glyf") go gl ∧ Loca d g a ∧ Loca d (g + 1) b ∧ a ≠ b ∧
    U16 d (go + a) n ∧ 0x8000 ≤ n ∧ InRecords d (go + a + 10) c

/-- `off'` is where a component record of the list starting at `off` begins. -/
inductive RecordAt (d : Bytes) : Nat → Nat → Prop
  | here (off : Nat) : RecordAt d off off
  | next {off off' fl : Nat} : U16 d off fl → fl.testBit 5 = true → RecordAt d (off + 4 + argBytes fl) off' →
      RecordAt d off off'

/-- Component records use at most one of the scale flags, as OpenType requires. -/
def PlainScales (d : Bytes) (off : Nat) : Prop :=
  ∀ off' fl, RecordAt d off off' → U16 d off' fl → fl.testBit 7 = true → fl.testBit 3 = false ∧ fl.testBit 6 = false

/-- What the theorems assume of a font file: distinct tags, `head` and `maxp` of at least their fixed size, a `loca` entry
for every glyph and one more, `loca` ascending and inside `glyf`, component records with at most one scale flag.  All
required by OpenType. -/
structure WellFormed (d : Bytes) : Prop where
  tags : DistinctTags d
  head : ∀ h hl, HasTable d (lit "head") h hl → 54 ≤ hl
  maxp : ∀ m ml, HasTable d (lit "maxp") m ml → 6 ≤ ml
  entries : ∀ n, NumGlyphs d n → ∀ g ≤ n, ∃ a, Loca d g a
  ascending : ∀ g a b, Loca d g a → Loca d (g + 1) b → a ≤ b
  glyf : ∃ go gl, HasTable d (lit "glyf") go gl ∧ go + gl ≤ d.length ∧ ∀ g a, Loca d g a → a ≤ gl
  scales : ∀ go gl g a n, HasTable d (lit "glyf") go gl → Loca d g a → U16 d (go + a) n → 0x8000 ≤ n →
    PlainScales d (go + a + 10)

/-- `c` is reached from `g` through composite references. -/
inductive Reaches (d : Bytes) : Nat → Nat → Prop
  | refl (g : Nat) : Reaches d g g
  | step {g c e : Nat} : Component d g c → Reaches d c e → Reaches d g e

/-- Sum of the big-endian 32-bit words, modulo 2^32 (OpenType: table checksum). -/
def wordSum : Bytes → Nat
  | a :: b :: c :: d :: rest =>
    (((a.toNat * 256 + b.toNat) * 256 + c.toNat) * 256 + d.toNat + wordSum rest) % 2 ^ 32
  | _ => 0

end Verif.FontFile
