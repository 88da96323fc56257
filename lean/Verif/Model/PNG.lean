import Verif.Model.Embed
/-
Embedding of PNG images (`image_obj_parse.go`).

`image.DecodeConfig` (called first by `parseImg`, lines 137-146) is not modelled: it can reject a file the model accepts.
zlib is a pair of functions given as parameters.
-/
namespace Verif.PNG
open Verif.TTF Verif.Embed

/-- image_obj_parse.go 505-512 `readBytes`, with `bytes.Reader.Read`: an error at the end of the data, otherwise as many
bytes as there are, the rest of the slice staying zero.  Returns the slice and the new position. -/
def readBytes (d : Bytes) (pos n : Nat) : Res (Bytes × Nat) :=
  if d.length ≤ pos then .error .err
  else
    let got := (d.drop pos).take n
    .ok (got ++ List.replicate (n - got.length) 0, pos + got.length)

/-- image_obj_parse.go 486-494 `readUInt`: big-endian, four bytes. -/
def readUInt (d : Bytes) (pos : Nat) : Res (Nat × Nat) := do
  let (b, pos) ← readBytes d pos 4
  pure (b.foldl (fun a x => 256 * a + x.toNat) 0, pos)

/-- image_obj_parse.go 332-341: what is kept of a `tRNS` chunk, by colour type.  Index expressions past the end panic. -/
def trnsOf (ct : Nat) (t : Bytes) : Res (Option Bytes) :=
  if ct = 0 then
    match t[1]? with
    | some x => .ok (some [x])
    | none => .error .panic
  else if ct = 2 then
    match t[1]?, t[3]?, t[5]? with
    | some x, some y, some z => .ok (some [x, y, z])
    | _, _, _ => .error .panic
  else if 0 ∈ t then .ok (some [UInt8.ofNat (t.idxOf 0)]) else .ok none

/-- State of the chunk loop: `pal`, `trns`, `data`. -/
structure Chunks where
  pal : Bytes
  trns : Option Bytes
  data : Bytes
  deriving DecidableEq, Repr

/-- image_obj_parse.go 303-372, the chunk loop.  Every turn reads at least one byte or fails at the end of the data, so
`d.length + 1` turns are never exceeded. -/
def chunkLoop (d : Bytes) (ct : Nat) : Nat → Nat → Chunks → Res Chunks
  | 0, _, _ => .error .err
  | fuel + 1, pos, s => do
    let (n, pos) ← readUInt d pos
    let (typ, pos) ← readBytes d pos 4
    if typ = lit "IEND" then pure s
    else do
      let (s, pos) ←
        (if typ = lit "PLTE" then do
          let (b, pos) ← readBytes d pos n
          pure ({ s with pal := b }, pos + 4)
        else if typ = lit "tRNS" then do
          let (b, pos) ← readBytes d pos n
          let t ← trnsOf ct b
          pure ({ s with trns := t.or s.trns }, pos + 4)
        else if typ = lit "IDAT" then do
          let (b, pos) ← readBytes d pos n
          pure ({ s with data := s.data ++ b }, pos + 4)
        else pure (s, pos + (n + 4)) : Res (Chunks × Nat))
      if n = 0 then pure s else chunkLoop d ct fuel pos s

/-- image_obj_parse.go 422-427 (inner loop): one line of a grey and alpha image. -/
def splitGA : Bytes → Bytes × Bytes
  | g :: a :: rest => let (c, al) := splitGA rest; (g :: c, a :: al)
  | _ => ([], [])

/-- image_obj_parse.go 443-447 (inner loop): one line of an RGBA image. -/
def splitRGBA : Bytes → Bytes × Bytes
  | r :: g :: b :: a :: rest => let (c, al) := splitRGBA rest; (r :: g :: b :: c, a :: al)
  | _ => ([], [])

/-- image_obj_parse.go 413-429 and 434-450: the loop over the lines, `length` bytes each plus the filter byte, which goes to
both results.  Slicing past the end panics. -/
def splitLines (split : Bytes → Bytes × Bytes) (length : Nat) (z : Bytes) : Nat → Nat → Bytes × Bytes → Res (Bytes × Bytes)
  | _, 0, acc => .ok acc
  | i, n + 1, (color, alpha) =>
    let pos := (1 + length) * i
    match z[pos]? with
    | none => .error .panic
    | some ft => do
      let line ← slice z (pos + 1) length
      splitLines split length z (i + 1) n (color ++ ft :: (split line).1, alpha ++ ft :: (split line).2)

/-- img_info.go: what is kept of an image. -/
structure Info where
  w : Nat
  h : Nat
  bpc : Nat
  colspace : Bytes
  colors : Nat
  pal : Bytes
  trns : Option Bytes
  data : Bytes
  smask : Option Bytes
  deriving DecidableEq, Repr

/-- image_obj_parse.go 213-468 `parsePng`.  `/DecodeParms` (386-390) is `/Predictor 15 /Colors colors /BitsPerComponent bpc
/Columns w`.  `strings.TrimSpace(pal)` being empty is simplified to `pal` consisting of ASCII white space only. -/
def parsePng (inflate : Bytes → Option Bytes) (deflate : Bytes → Bytes) (d : Bytes) : Res Info := do
  let (magic, _) ← readBytes d 0 8
  if magic ≠ [0x89, 0x50, 0x4e, 0x47, 0x0d, 0x0a, 0x1a, 0x0a] then throw .err
  let (ihdr, _) ← readBytes d 12 4
  if ihdr ≠ lit "IHDR" then throw .err
  let (w, _) ← readUInt d 16
  let (h, _) ← readUInt d 20
  let (bpc, _) ← readBytes d 24 1
  if 8 < (bpc.getD 0 0).toNat then throw .err
  let (ct, _) ← readBytes d 25 1
  let ct := (ct.getD 0 0).toNat
  if ct ≠ 0 ∧ ct ≠ 2 ∧ ct ≠ 3 ∧ ct ≠ 4 ∧ ct ≠ 6 then throw .err
  let colspace := if ct = 0 ∨ ct = 4 then lit "DeviceGray" else if ct = 3 then lit "Indexed" else lit "DeviceRGB"
  let (cm, _) ← readBytes d 26 1
  if cm ≠ [0] then throw .err
  let (fm, _) ← readBytes d 27 1
  if fm ≠ [0] then throw .err
  let (il, _) ← readBytes d 28 1
  if il ≠ [0] then throw .err
  let s ← chunkLoop d ct (d.length + 1) 33 ⟨[], none, []⟩
  if ct = 3 ∧ s.pal.all (fun b => b = 32 ∨ (9 ≤ b ∧ b ≤ 13)) then throw .err
  let colors := if ct = 2 ∨ ct = 6 then 3 else 1
  if 4 ≤ ct then
    match inflate s.data with
    | none => throw .err
    | some z => do
      let (color, alpha) ← if ct = 4 then splitLines splitGA (2 * w) z 0 h ([], [])
        else splitLines splitRGBA (4 * w) z 0 h ([], [])
      pure ⟨w, h, (bpc.getD 0 0).toNat, colspace, colors, s.pal, s.trns, deflate color, some (deflate alpha)⟩
  else pure ⟨w, h, (bpc.getD 0 0).toNat, colspace, colors, s.pal, s.trns, s.data, none⟩

end Verif.PNG
