import Verif.Base.Bytes
/-
The character to glyph mapping of a TrueType font file, straight from the OpenType specification ("cmap" chapter):
statements about the bytes of the file, independent of the parser's model.
-/
namespace Verif.CmapSpec

/-- Byte `p` of the file, as a number. -/
def byte (d : Bytes) (p n : Nat) : Prop := ∃ b : UInt8, d[p]? = some b ∧ b.toNat = n

/-- The big-endian 16-bit number at offset `p` is `n`. -/
def U16 (d : Bytes) (p n : Nat) : Prop := ∃ a b, byte d p a ∧ byte d (p + 1) b ∧ n = 256 * a + b

/-- The big-endian 32-bit number at offset `p` is `n`. -/
def U32 (d : Bytes) (p n : Nat) : Prop := ∃ a b, U16 d p a ∧ U16 d (p + 2) b ∧ n = 65536 * a + b

/-- The cmap table at `cm` has an encoding record `(platform, encoding, offset)`. -/
def HasRecord (d : Bytes) (cm pid eid off : Nat) : Prop :=
  ∃ n i, U16 d (cm + 2) n ∧ i < n ∧
    U16 d (cm + 4 + 8 * i) pid ∧ U16 d (cm + 4 + 8 * i + 2) eid ∧ U32 d (cm + 4 + 8 * i + 4) off

/-- A format 4 subtable at `b` with `sc` segments. -/
def IsFormat4 (d : Bytes) (b sc : Nat) : Prop :=
  U16 d b 4 ∧ ∃ x, U16 d (b + 6) x ∧ sc = x / 2

/-- Fields of segment `i` of a format 4 subtable at `b` with `sc` segments. -/
def EndCode (d : Bytes) (b i n : Nat) : Prop := U16 d (b + 14 + 2 * i) n
def StartCode (d : Bytes) (b sc i n : Nat) : Prop := U16 d (b + 16 + 2 * sc + 2 * i) n
def Delta (d : Bytes) (b sc i n : Nat) : Prop := U16 d (b + 16 + 4 * sc + 2 * i) n
/-- File offset of `idRangeOffset[i]`. -/
def rangeAddr (b sc i : Nat) : Nat := b + 16 + 6 * sc + 2 * i
def RangeOffset (d : Bytes) (b sc i n : Nat) : Prop := U16 d (rangeAddr b sc i) n

/-- `i` is the segment to search for code `c`: the first whose end code is greater than or equal to it. -/
def IsSegment (d : Bytes) (b sc c i : Nat) : Prop :=
  i < sc ∧ (∃ e, EndCode d b i e ∧ c ≤ e) ∧ ∀ j < i, ∃ e, EndCode d b j e ∧ e < c

/-- Format 4 maps the code to the glyph: the code's segment starts at or before it, and the glyph is the code plus
delta, or, with a nonzero range offset, the number found that many bytes after the range offset's own address plus
two for each code since the start code, plus delta unless it is 0. -/
def Maps4 (d : Bytes) (b sc c g : Nat) : Prop :=
  ∃ i s dl ro, IsSegment d b sc c i ∧ StartCode d b sc i s ∧ Delta d b sc i dl ∧ RangeOffset d b sc i ro ∧ s ≤ c ∧
    ((ro = 0 ∧ g = (c + dl) % 65536) ∨
     (ro ≠ 0 ∧ ∃ x, U16 d (rangeAddr b sc i + ro + 2 * (c - s)) x ∧
        g = if x = 0 then 0 else (x + dl) % 65536))

/-- Format 4 has no glyph for the code: its segment starts after it. -/
def Unmapped4 (d : Bytes) (b sc c : Nat) : Prop :=
  ∃ i s, IsSegment d b sc c i ∧ StartCode d b sc i s ∧ c < s

/-- Group `i` of a format 12 subtable at `b`. -/
def HasGroup (d : Bytes) (b i s e g : Nat) : Prop :=
  U32 d (b + 16 + 12 * i) s ∧ U32 d (b + 16 + 12 * i + 4) e ∧ U32 d (b + 16 + 12 * i + 8) g

/-- Format 12 maps the code to the glyph. -/
def Maps12 (d : Bytes) (b n c g : Nat) : Prop :=
  ∃ i s e g0, i < n ∧ HasGroup d b i s e g0 ∧ s ≤ c ∧ c ≤ e ∧ g = c - s + g0

/-- A well-formed format 4 subtable (OpenType: the last segment ends at 0xFFFF; range offsets are even and, within a
segment, point into the subtable's glyph index array, whose end is given by the length field). -/
structure WellFormed4 (d : Bytes) (b sc : Nat) : Prop where
  last : ∃ i < sc, EndCode d b i 0xFFFF
  even : ∀ i < sc, ∀ ro, RangeOffset d b sc i ro → ro % 2 = 0
  inside : ∀ i < sc, ∀ s e ro len, StartCode d b sc i s → EndCode d b i e → RangeOffset d b sc i ro →
    U16 d (b + 2) len → ro ≠ 0 → s ≤ e →
    b + 16 + 8 * sc ≤ rangeAddr b sc i + ro ∧ rangeAddr b sc i + ro + 2 * (e - s) + 2 ≤ b + len

/-- The table directory of the file has an entry for the table: tag, checksum, offset, length. -/
def HasTable (d : Bytes) (tag : Bytes) (off len : Nat) : Prop :=
  ∃ n i, U16 d 4 n ∧ i < n ∧ (d.drop (12 + 16 * i)).take 4 = tag ∧
    U32 d (12 + 16 * i + 8) off ∧ U32 d (12 + 16 * i + 12) len

end Verif.CmapSpec
