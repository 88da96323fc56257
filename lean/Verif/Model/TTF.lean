import Verif.Base.Bytes
/-
The TrueType font parser (`fontmaker/core/ttfparser*.go`).

A font file is a byte string; the `*bytes.Reader` is an explicit position.  Numbers are natural numbers: all
values read are at most 32 bits wide, so the `uint`/`int` arithmetic of a 64-bit platform does not overflow except
where a subtraction is written out below.
-/
namespace Verif.TTF

/-- How a Go call can fail: an error value, the error `ErrGlyphNotFound`, or a run-time panic. -/
inductive Fault where
  | err
  | notFound
  | panic
  deriving DecidableEq, Repr

abbrev Res (α : Type) := Except Fault α

instance {α : Type} [DecidableEq α] : DecidableEq (Res α)
  | .ok a, .ok b => decidable_of_iff (a = b) (by simp)
  | .error a, .error b => decidable_of_iff (a = b) (by simp)
  | .ok _, .error _ => .isFalse (by simp)
  | .error _, .ok _ => .isFalse (by simp)

/-- ttfparser.go 973-980 `ReadUShort`, 1027-1037 `Read`: two bytes at `p`, big-endian; an error at the end of the file. -/
def u16 (d : Bytes) (p : Nat) : Res Nat :=
  match d[p]?, d[p + 1]? with
  | some a, some b => .ok (a.toNat * 256 + b.toNat)
  | _, _ => .error .err

/-- ttfparser.go 1008-1015 `ReadULong`: four bytes at `p`, big-endian. -/
def u32 (d : Bytes) (p : Nat) : Res Nat :=
  match d[p]?, d[p + 1]?, d[p + 2]?, d[p + 3]? with
  | some a, some b, some c, some e =>
    .ok (((a.toNat * 256 + b.toNat) * 256 + c.toNat) * 256 + e.toNat)
  | _, _, _, _ => .error .err

/-- ttfparser.go 983-996 `ReadShort`: two's complement. -/
def i16 (d : Bytes) (p : Nat) : Res Int := do
  let u ← u16 d p
  if u ≥ 0x8000 then pure ((u : Int) - 65536) else pure u

/-- `k` consecutive `ReadUShort` calls from position `p` (the loops of `ParseCmap`, ttfparser.go 675-727, and
`ParseLoca` 346-354). -/
def u16s (d : Bytes) : Nat → Nat → Res (List Nat)
  | _, 0 => .ok []
  | p, k + 1 => do
    let x ← u16 d p
    let xs ← u16s d (p + 2) k
    pure (x :: xs)

/-- `k` consecutive `ReadULong` calls from position `p` (ttfparser.go 357-364). -/
def u32s (d : Bytes) : Nat → Nat → Res (List Nat)
  | _, 0 => .ok []
  | p, k + 1 => do
    let x ← u32 d p
    let xs ← u32s d (p + 4) k
    pure (x :: xs)

/-- table_directory_entry.go 3-7. -/
structure Table where
  checksum : Nat
  offset : Nat
  length : Nat
  deriving DecidableEq, Repr, Inhabited

/-- table_directory_entry.go 9-12 `PaddedLength`: `(l+3) & ^3`. -/
def Table.padded (t : Table) : Nat := (t.length + 3) / 4 * 4

/-- ttfparser.go 245-273, the loop over the table directory: tag, checksum, offset, length, 16 bytes each.  The Go
map is a list with the newest entry first. -/
def readTables (d : Bytes) : Nat → Nat → List (Bytes × Table) → Res (List (Bytes × Table))
  | _, 0, acc => .ok acc
  | p, k + 1, acc => do
    if (d.drop p).length < 4 then throw .err
    let tag := (d.drop p).take 4
    let c ← u32 d (p + 4)
    let o ← u32 d (p + 8)
    let l ← u32 d (p + 12)
    readTables d (p + 16) k ((tag, ⟨c, o, l⟩) :: acc)

/-- Go map lookup in `t.tables`. -/
def tableOf (ts : List (Bytes × Table)) (tag : Bytes) : Option Table :=
  (ts.find? fun e => e.1 == tag).map (·.2)

/-- ttfparser.go 954-966 `Seek`: the offset of a table, or `ErrTableNotFound`. -/
def seek (ts : List (Bytes × Table)) (tag : String) : Res Nat :=
  match tableOf ts (lit tag) with
  | some t => .ok t.offset
  | none => .error .err

/-- ttfparser.go 829-896 `ParseHead`: `(unitsPerEm, indexToLocFormat)`.  The bounding box is read too; only that
reading it can fail matters here. -/
def parseHead (d : Bytes) (ts : List (Bytes × Table)) : Res (Nat × Int) := do
  let p ← seek ts "head"
  let magic ← u32 d (p + 12)
  if magic ≠ 0x5F0F3CF5 then throw .err
  let upem ← u16 d (p + 18)
  let _ ← i16 d (p + 36)
  let _ ← i16 d (p + 38)
  let _ ← i16 d (p + 40)
  let _ ← i16 d (p + 42)
  let fmt ← i16 d (p + 50)
  pure (upem, fmt)

/-- ttfparser.go 898-931 `ParseHhea`: `(ascender, descender, numberOfHMetrics)`. -/
def parseHhea (d : Bytes) (ts : List (Bytes × Table)) : Res (Int × Int × Nat) := do
  let p ← seek ts "hhea"
  let asc ← i16 d (p + 4)
  let desc ← i16 d (p + 6)
  let n ← u16 d (p + 34)
  pure (asc, desc, n)

/-- ttfparser.go 934-948 `ParseMaxp`: `numGlyphs`. -/
def parseMaxp (d : Bytes) (ts : List (Bytes × Table)) : Res Nat := do
  let p ← seek ts "maxp"
  u16 d (p + 4)

/-- ttfparser.go 790-801, the loop of `ParseHmtx`: an advance width every 4 bytes. -/
def hmtxWidths (d : Bytes) : Nat → Nat → Res (List Nat)
  | _, 0 => .ok []
  | p, k + 1 => do
    let w ← u16 d p
    let ws ← hmtxWidths d (p + 4) k
    pure (w :: ws)

/-- ttfparser.go 813-826 `ArrayPadUint`. -/
def arrayPad (arr : List Nat) (size val : Nat) : List Nat :=
  (List.range size).map fun i => arr.getD i val

/-- ttfparser.go 783-811 `ParseHmtx`.  `t.widths[t.numberOfHMetrics-1]` panics when `numberOfHMetrics` is 0. -/
def parseHmtx (d : Bytes) (ts : List (Bytes × Table)) (nHM nGlyphs : Nat) : Res (List Nat) := do
  let p ← seek ts "hmtx"
  let ws ← hmtxWidths d p nHM
  if nHM < nGlyphs then
    match nHM with
    | 0 => throw .panic
    | n + 1 => pure (arrayPad ws nGlyphs (ws.getD n 0))
  else pure ws

/-- ttfparser.go 607-629, the loop over encoding records in `ParseCmap`: the offset of the last record with
platform 3, encoding 1 (`0` if there is none). -/
def offset31 (d : Bytes) : Nat → Nat → Nat → Res Nat
  | _, 0, acc => .ok acc
  | p, k + 1, acc => do
    let pid ← u16 d p
    let eid ← u16 d (p + 2)
    let off ← u32 d (p + 4)
    offset31 d (p + 8) k (if pid = 3 ∧ eid = 1 then off else acc)

/-- The format 4 arrays kept by the parser (ttfparser.go 63-68). -/
structure Cmap4 where
  segCount : Nat
  endCount : List Nat
  startCount : List Nat
  idDelta : List Nat
  idRangeOffset : List Nat
  glyphIdArray : List Nat
  deriving DecidableEq, Repr

/-- ttfparser.go 643-727: the format 4 subtable at position `b`.  `glyphCount := (length - (16 + 8*segCount)) / 2` is
computed on 64-bit unsigned integers. -/
def parseCmap4 (d : Bytes) (b : Nat) : Res Cmap4 := do
  let format ← u16 d b
  if format ≠ 4 then throw .err
  let length ← u16 d (b + 2)
  let segX2 ← u16 d (b + 6)
  let sc := segX2 / 2
  let glyphCount := (if 16 + 8 * sc ≤ length then length - (16 + 8 * sc)
    else 2 ^ 64 + length - (16 + 8 * sc)) / 2
  let ec ← u16s d (b + 14) sc
  let st ← u16s d (b + 16 + 2 * sc) sc
  let dl ← u16s d (b + 16 + 4 * sc) sc
  let ro ← u16s d (b + 16 + 6 * sc) sc
  let ga ← u16s d (b + 16 + 8 * sc) glyphCount
  pure ⟨sc, ec, st, dl, ro, ga⟩

/-- ttfparser.go 742-765, the inner loop filling `t.chars` for one segment: `n` codes starting at `c`, with `pos` the
reader's position when `ro > 0`.  Returns the assignments in order. -/
def segChars (d : Bytes) (ro delta : Nat) : Nat → Nat → Nat → Res (List (Nat × Nat))
  | _, _, 0 => .ok []
  | pos, c, n + 1 =>
    if c = 0xFFFF then .ok [] else do
      let g0 ← if ro > 0 then do
          let g ← u16 d pos
          pure (if g > 0 then g + delta else g)
        else pure (c + delta)
      let g := if g0 ≥ 65536 then g0 - 65536 else g0
      let rest ← segChars d ro delta (pos + 2) (c + 1) n
      pure (if g > 0 then (c, g) :: rest else rest)

/-- ttfparser.go 730-767: all segments, `i` the segment's number and `roff` the position of `idRangeOffset[0]`. -/
def allChars (d : Bytes) (roff : Nat) : Nat → List (Nat × Nat × Nat × Nat) → Res (List (Nat × Nat))
  | _, [] => .ok []
  | i, (c1, c2, dl, ro) :: rest => do
    let here ← segChars d ro dl (roff + 2 * i + ro) c1 (c2 + 1 - c1)
    let more ← allChars d roff (i + 1) rest
    pure (here ++ more)

/-- A format 12 group (ttfparser_cmap_other_format.go 131-133). -/
structure Group where
  start : Nat
  stop : Nat
  glyph : Nat
  deriving DecidableEq, Repr

/-- ttfparser_cmap_other_format.go 23-53: the offset of the first encoding record with platform 3, encoding 10.  All
records are read before the search starts. -/
def offset310 (d : Bytes) : Nat → Nat → Res (Option Nat)
  | _, 0 => .ok none
  | p, k + 1 => do
    let pid ← u16 d p
    let eid ← u16 d (p + 2)
    let off ← u32 d (p + 4)
    let rest ← offset310 d (p + 8) k
    pure (if pid = 3 ∧ eid = 10 then some off else rest)

/-- ttfparser_cmap_other_format.go 97-120: the groups, 12 bytes each. -/
def groups (d : Bytes) : Nat → Nat → Res (List Group)
  | _, 0 => .ok []
  | p, k + 1 => do
    let s ← u32 d p
    let e ← u32 d (p + 4)
    let g ← u32 d (p + 8)
    let rest ← groups d (p + 12) k
    pure (⟨s, e, g⟩ :: rest)

/-- ttfparser_cmap_other_format.go 9-123 `ParseCmapFormat12`, with `cm` the offset of the cmap table. -/
def parseCmap12 (d : Bytes) (cm : Nat) : Res (List Group) := do
  let n ← u16 d (cm + 2)
  match ← offset310 d (cm + 4) n with
  | none => pure []
  | some off =>
    let b := cm + off
    let format ← u16 d b
    if format ≠ 12 then throw .err
    let reserved ← u16 d (b + 2)
    if reserved ≠ 0 then throw .err
    let ng ← u32 d (b + 12)
    groups d (b + 16) ng

/-- What `ParseCmap` leaves behind. -/
structure Cmap where
  f4 : Cmap4
  chars : List (Nat × Nat)
  f12 : List Group
  deriving DecidableEq, Repr

/-- ttfparser.go 593-775 `ParseCmap`, with `cm` the offset of the cmap table. -/
def parseCmapAt (d : Bytes) (cm : Nat) : Res Cmap := do
  let n ← u16 d (cm + 2)
  let off ← offset31 d (cm + 4) n 0
  if off = 0 then throw .err
  let b := cm + off
  let c4 ← parseCmap4 d b
  let chars ← allChars d (b + 16 + 6 * c4.segCount) 0
    (c4.startCount.zip (c4.endCount.zip (c4.idDelta.zip c4.idRangeOffset)))
  let c12 ← parseCmap12 d cm
  pure ⟨c4, chars, c12⟩

/-- ttfparser.go 593-597. -/
def parseCmap (d : Bytes) (ts : List (Bytes × Table)) : Res Cmap := do
  let cm ← seek ts "cmap"
  parseCmapAt d cm

/-- ttfparser.go 331-370 `ParseLoca`: short entries are doubled. -/
def parseLoca (d : Bytes) (ts : List (Bytes × Table)) (short : Bool) : Res (List Nat) :=
  match tableOf ts (lit "loca") with
  | none => .error .err
  | some t =>
    if short then do
      let l ← u16s d t.offset (t.length / 2)
      pure (l.map (2 * ·))
    else u32s d t.offset (t.length / 4)

/-- The parsed font (ttfparser.go 21-79), the parts used for embedding and measuring. -/
structure Font where
  data : Bytes
  tables : List (Bytes × Table)
  unitsPerEm : Nat
  shortIndex : Bool
  ascender : Int
  descender : Int
  nHMetrics : Nat
  nGlyphs : Nat
  widths : List Nat
  cmap : Cmap
  loca : List Nat
  deriving DecidableEq, Repr

/-- ttfparser.go 224-322 `ParseFontData`.  `ParseName`, `ParseOS2`, `ParsePost` and `Parsekern` are left out (the
values they produce are not used by the functions modelled in this file, but they can make Go report an error where
the model succeeds). -/
def parseFont (d : Bytes) : Res Font := do
  if d.take 4 ≠ [0, 1, 0, 0] then throw .err
  let n ← u16 d 4
  let ts ← readTables d 12 n []
  let (upem, fmt) ← parseHead d ts
  let (asc, desc, nHM) ← parseHhea d ts
  let nG ← parseMaxp d ts
  let ws ← parseHmtx d ts nHM nG
  let cm ← parseCmap d ts
  let short := fmt == 0
  let loca ← parseLoca d ts short
  pure ⟨d, ts, upem, short, asc, desc, nHM, nG, ws, cm, loca⟩

/-- subset_font_obj.go 240-252 `charCodeToGlyphIndexFormat12`: the first group that contains the code. -/
def lookup12 : List Group → Nat → Res Nat
  | [], _ => .error .notFound
  | g :: rest, v => if g.start ≤ v ∧ v ≤ g.stop then .ok (v - g.start + g.glyph) else lookup12 rest v

/-- subset_font_obj.go 256-263: the loop looking for the first segment whose end code is not below the code.
`EndCount[seg]` cannot be out of range here since `EndCount` has `segCount` entries. -/
def segIndex (ec : List Nat) (sc v : Nat) : Nat → Nat
  | 0 => sc
  | fuel + 1 =>
    let seg := sc - (fuel + 1)
    if v ≤ ec.getD seg 0 then seg else segIndex ec sc v fuel

/-- subset_font_obj.go 254-281 `charCodeToGlyphIndexFormat4`.  Slice accesses outside their bounds are panics; a
negative index is one too. -/
def lookup4 (c : Cmap4) (v : Nat) : Res Nat :=
  let seg := segIndex c.endCount c.segCount v c.segCount
  match c.startCount[seg]?, c.idRangeOffset[seg]?, c.idDelta[seg]? with
  | some st, some ro, some dl =>
    if v < st then .error .notFound
    else if ro = 0 then .ok ((v + dl) % 65536)
    else if ro / 2 + (v - st) < c.segCount - seg then .error .panic
    else match c.glyphIdArray[ro / 2 + (v - st) - (c.segCount - seg)]? with
      | none => .error .panic
      | some 0 => .ok 0
      | some g => .ok ((g + dl) % 65536)
  | _, _, _ => .error .panic

/-- subset_font_obj.go 284-298 `CharCodeToGlyphIndex`, for a non-negative rune. -/
def glyphOf (cm : Cmap) (r : Nat) : Res Nat :=
  if r ≤ 0xFFFF then lookup4 cm.f4 r else lookup12 cm.f12 r

end Verif.TTF
