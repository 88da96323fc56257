import Verif.Model.TTF
import Mathlib.Data.List.Sort
/-
The embedded font program: `pdf_dictionary_obj.go`, `buff.go`, `buff_write.go`, `strhelper.go`.

Slice expressions outside a slice's length are panics here (Go allows them up to the slice's capacity; the model takes
capacity equal to length).
-/
namespace Verif.Embed
open Verif.TTF

/-! ### buff.go, buff_write.go -/

/-- buff.go 4-7. -/
structure Buff where
  position : Nat
  datas : Bytes
  deriving DecidableEq, Repr

/-- buff.go 10-22 `Write`: grow with zeros to `position + len(p)`, then overwrite from `position`. -/
def Buff.write (b : Buff) (p : Bytes) : Buff :=
  let datas := b.datas ++ List.replicate (b.position + p.length - b.datas.length) 0
  ⟨b.position + p.length, datas.take b.position ++ p ++ datas.drop (b.position + p.length)⟩

/-- buff.go 40-42 `SetPosition`. -/
def Buff.setPosition (b : Buff) (pos : Nat) : Buff := ⟨pos, b.datas⟩

/-- buff_write.go 6-16 `WriteUInt32`: the four low bytes, most significant first (`byte(v >> 24)` keeps the low eight
bits). -/
def be32 (v : Nat) : Bytes :=
  [UInt8.ofNat (v / 2 ^ 24), UInt8.ofNat (v / 2 ^ 16), UInt8.ofNat (v / 2 ^ 8), UInt8.ofNat v]

/-- buff_write.go 19-28 `WriteUInt16`. -/
def be16 (v : Nat) : Bytes := [UInt8.ofNat (v / 2 ^ 8), UInt8.ofNat v]

/-- buff_write.go 41-48 `WriteBytes`: `data[offset : offset+count]`. -/
def slice (d : Bytes) (off n : Nat) : Res Bytes :=
  if off + n ≤ d.length then .ok ((d.drop off).take n) else .error .panic

/-! ### strhelper.go -/

/-- strhelper.go 50-55 `ReadUShortFromByte`: panics outside the data. -/
def readU (d : Bytes) (p : Nat) : Res Nat :=
  match u16 d p with
  | .ok n => .ok n
  | .error _ => .error .panic

/-! ### pdf_dictionary_obj.go -/

/-- pdf_dictionary_obj.go 160-174 and 365-371: `glyf.Offset + LocaTable[glyph]`; a font without `glyf` table has
offset 0 (Go's zero value). -/
def glyphOffset (f : Font) (g : Nat) : Res Nat :=
  match f.loca[g]? with
  | none => .error .panic
  | some l => .ok (((tableOf f.tables (lit "glyf")).getD ⟨0, 0, 0⟩).offset + l)

/-- pdf_dictionary_obj.go 160-167 `getGlyphSize` (an `int`, possibly negative). -/
def glyphSize (f : Font) (g : Nat) : Res Int := do
  let a ← glyphOffset f g
  let b ← glyphOffset f (g + 1)
  pure ((b : Int) - (a : Int))

/-- pdf_dictionary_obj.go 169-182 `getGlyphData`. -/
def glyphData (f : Font) (g : Nat) : Res Bytes := do
  let a ← glyphOffset f g
  let b ← glyphOffset f (g + 1)
  if b ≤ a then pure [] else slice f.data a (b - a)

/-- pdf_dictionary_obj.go 343-355: bytes to skip after a component's flags and glyph number. -/
def componentArgs (flags : Nat) : Nat :=
  (if flags.testBit 0 then 4 else 2) +
  (if flags.testBit 3 then 2 else if flags.testBit 6 then 4 else 0) +
  (if flags.testBit 7 then 8 else 0)

/-- pdf_dictionary_obj.go 322-356, the loop over the components of a composite glyph.  Every turn moves the offset
forward, so a walk longer than the file ends with an access outside of it: running out of fuel (the length of the
file plus one) is that panic. -/
def componentsLoop (d : Bytes) : Nat → Nat → List Nat → Res (List Nat)
  | 0, _, _ => .error .panic
  | fuel + 1, off, arr => do
    let flags ← readU d off
    let c ← readU d (off + 2)
    let arr' := if arr.contains c then arr else arr ++ [c]
    if flags.testBit 5 then componentsLoop d fuel (off + 4 + componentArgs flags) arr' else pure arr'

/-- pdf_dictionary_obj.go 307-357 `AddCompositeGlyphs`. -/
def addComposite (f : Font) (arr : List Nat) (g : Nat) : Res (List Nat) := do
  let start ← glyphOffset f g
  let next ← glyphOffset f (g + 1)
  if start = next then pure arr
  else do
    let n ← readU f.data start
    if n < 0x8000 then pure arr   -- number of contours not negative
    else componentsLoop f.data (f.data.length + 1) (start + 10) arr

/-- pdf_dictionary_obj.go 296-301: `AddCompositeGlyphs` for the first `count` entries of the growing list. -/
def closureLoop (f : Font) : List Nat → List Nat → Res (List Nat)
  | [], arr => .ok arr
  | g :: gs, arr => do
    let arr' ← addComposite f arr g
    closureLoop f gs arr'

/-- pdf_dictionary_obj.go 281-303 `completeGlyphClosure`.  `glyphArray[i]` for `i < len(glyphs)` is `glyphs[i]` since
the list only grows at its end. -/
def closure (f : Font) (vals : List Nat) : Res (List Nat) :=
  closureLoop f vals (if vals.contains 0 then vals else vals ++ [0])

/-- pdf_dictionary_obj.go 92-103 `distinctInts` (`prev` starts as -1: no value). -/
def distinct : Option Nat → List Nat → List Nat
  | _, [] => []
  | prev, g :: gs => if prev = some g then distinct prev gs else g :: distinct (some g) gs

/-- `sort.Ints` (pdf_dictionary_obj.go 112): the ascending arrangement, whatever the algorithm. -/
def sortNats (l : List Nat) : List Nat := l.insertionSort (· ≤ ·)

/-- pdf_dictionary_obj.go 116-119: sum of the glyph sizes. -/
def totalSize (f : Font) : List Nat → Res Int
  | [] => .ok 0
  | g :: gs => do
    let s ← glyphSize f g
    let r ← totalSize f gs
    pure (s + r)

/-- pdf_dictionary_obj.go 125-156, the loop over all glyph numbers from `idx`, `n` of them: `arr` is what remains of
the glyph array (`glyphArray[glyphIndex:]`), `old` is `oldglyph`.  Glyph data are always copied to the end of what was
copied before, so the table under construction is the list of bytes `acc` and `glyphOffset` its length.  Returns the
bytes and the loca entries. -/
def glyfLoop (f : Font) : Nat → Nat → List Nat → Option Nat → Bytes → Res (Bytes × List Nat)
  | _, 0, _, _, acc => .ok (acc, [acc.length])
  | idx, n + 1, arr, old, acc =>
    match arr with
    | [] => do
      let (b, l) ← glyfLoop f (idx + 1) n [] old acc
      pure (b, acc.length :: l)
    | g :: gs =>
      if g = idx ∨ old = some g then do
        let data ← glyphData f idx
        let (b, l) ← glyfLoop f (idx + 1) n gs (if g = idx then some g else old) (acc ++ data)
        pure (b, acc.length :: l)
      else do
        let (b, l) ← glyfLoop f (idx + 1) n (g :: gs) old acc
        pure (b, acc.length :: l)

/-- pdf_dictionary_obj.go 105-158 `makeGlyfAndLocaTable`.  The table is allocated with the padded total size first; a
negative size makes `make` panic, and so does copying past the end. -/
def makeGlyfLoca (f : Font) (vals : List Nat) : Res (Bytes × List Nat) := do
  let arr ← closure f vals
  let arr := distinct none (sortNats arr)
  let size ← totalSize f arr
  if size < 0 then throw .panic
  let padded := (size.toNat + 3) / 4 * 4
  let (b, loca) ← glyfLoop f 0 f.nGlyphs arr none []
  if b.length > padded then throw .panic
  pure (b ++ List.replicate (padded - b.length) 0, loca)

/-- pdf_dictionary_obj.go 374-397 `CheckSum`: the bytes at each place within a word are added separately.  Reading
past the end when the length is no multiple of four is a panic. -/
def byteSums : Bytes → Nat × Nat × Nat × Nat → Res (Nat × Nat × Nat × Nat)
  | [], s => .ok s
  | a :: b :: c :: d :: rest, (s3, s2, s1, s0) =>
    byteSums rest (s3 + a.toNat, s2 + b.toNat, s1 + c.toNat, s0 + d.toNat)
  | _, _ => .error .panic

/-- pdf_dictionary_obj.go 394-395: the 32-bit sum. -/
def checkSum (d : Bytes) : Res Nat := do
  let (s3, s2, s1, s0) ← byteSums d (0, 0, 0, 0)
  pure (((s3 * 2 ^ 24) % 2 ^ 32 + (s2 * 2 ^ 16) % 2 ^ 32 + (s1 * 2 ^ 8) % 2 ^ 32 + s0 % 2 ^ 32) % 2 ^ 32)

/-- pdf_dictionary_obj.go 188-196 and 211-215: the tables embedded, in the order of their sorted tags. -/
def tags : List Bytes :=
  [lit "cvt ", lit "fpgm", lit "glyf", lit "head", lit "hhea", lit "hmtx", lit "loca", lit "maxp", lit "prep"]

/-- pdf_dictionary_obj.go 228-257: the encoded loca table, padded with zeros. -/
def locaBytes (short : Bool) (loca : List Nat) : Bytes :=
  let b := if short then loca.flatMap (fun v => be16 (v / 2)) else loca.flatMap be32
  b ++ List.replicate ((b.length + 3) / 4 * 4 - b.length) 0

/-- pdf_dictionary_obj.go 220-264: data, checksum and length of one table. -/
def tableData (f : Font) (glyf : Bytes) (loca : List Nat) (tag : Bytes) : Res (Bytes × Nat × Nat) :=
  if tag = lit "glyf" then do
    let c ← checkSum glyf
    let d ← slice glyf 0 ((glyf.length + 3) / 4 * 4)
    pure (d, c, glyf.length)
  else if tag = lit "loca" then do
    let d := locaBytes f.shortIndex loca
    let c ← checkSum d
    pure (d, c, loca.length * (if f.shortIndex then 2 else 4))
  else do
    let e := (tableOf f.tables tag).getD ⟨0, 0, 0⟩
    let d ← slice f.data e.offset e.padded
    pure (d, e.checksum, e.length)

/-- pdf_dictionary_obj.go 218-277, the loop over the tables: `idx` the table's number, `pos` is `tablePosition`. -/
def tablesLoop (f : Font) (glyf : Bytes) (loca : List Nat) : Nat → Nat → List Bytes → Buff → Res Buff
  | _, _, [], buff => .ok buff
  | idx, pos, tag :: rest, buff => do
    let (d, c, len) ← tableData f glyf loca tag
    let buff := (buff.setPosition pos).write d
    let endPos := buff.position
    let buff := (((((buff.setPosition (idx * 16 + 12)).write tag).write (be32 c)).write (be32 pos)).write (be32 len))
    tablesLoop f glyf loca (idx + 1) endPos rest buff

/-- pdf_dictionary_obj.go 184-279 `makeFont`: nine tables, `EntrySelectors[9] = 3`. -/
def makeFont (f : Font) (vals : List Nat) : Res Bytes := do
  let (glyf, loca) ← makeGlyfLoca f vals
  let buff : Buff := ⟨0, []⟩
  let buff := ((((buff.write (be32 0x00010000)).write (be16 9)).write (be16 (8 * 16))).write (be16 3)).write
    (be16 ((9 - 8) * 16))
  let buff ← tablesLoop f glyf loca 0 (12 + 16 * 9) tags buff
  pure buff.datas

end Verif.Embed
