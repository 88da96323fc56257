import Verif.Base.Bytes
/-
PNG (ISO/IEC 15948): chunks and scan line filters.  The PDF predictor 15 (ISO 32000 7.4.4.4) is the same filter, with the
number of bytes per pixel taken from `/Colors` and `/BitsPerComponent`.
-/
namespace Verif.PngSpec

/-- A chunk: type, data, check bytes. -/
structure Chunk where
  typ : Bytes
  data : Bytes
  crc : Bytes

/-- The bytes of a number, four of them, most significant first. -/
def be (n : Nat) : Bytes := [UInt8.ofNat (n / 2 ^ 24), UInt8.ofNat (n / 2 ^ 16), UInt8.ofNat (n / 2 ^ 8), UInt8.ofNat n]

/-- A chunk in the file. -/
def Chunk.bytes (c : Chunk) : Bytes := be c.data.length ++ c.typ ++ c.data ++ c.crc

/-- The header chunk's data for an image of `w` by `h` with given bit depth and colour type, not interlaced. -/
def header (w h depth ct : Nat) : Bytes := be w ++ be h ++ [UInt8.ofNat depth, UInt8.ofNat ct, 0, 0, 0]

def signature : Bytes := [0x89, 0x50, 0x4e, 0x47, 0x0d, 0x0a, 0x1a, 0x0a]

/-- A file: signature, header, other chunks, end chunk. -/
def file (w h depth ct : Nat) (hcrc : Bytes) (cs : List Chunk) (ecrc : Bytes) : Bytes :=
  signature ++ (Chunk.mk (lit "IHDR") (header w h depth ct) hcrc).bytes ++ (cs.map Chunk.bytes).flatten ++
    (Chunk.mk (lit "IEND") [] ecrc).bytes

/-- The compressed image data: the concatenation of all `IDAT` chunks. -/
def idat (cs : List Chunk) : Bytes := ((cs.filter (fun c => c.typ = lit "IDAT")).map (·.data)).flatten

/-- The palette: the data of the (last) `PLTE` chunk; `p` if there is none. -/
def palette (p : Bytes) : List Chunk → Bytes
  | [] => p
  | c :: cs => palette (if c.typ = lit "PLTE" then c.data else p) cs

/-! ### Filters -/

/-- The Paeth predictor: of left, above, upper left the one nearest to left + above - upper left. -/
def paeth (a b c : UInt8) : UInt8 :=
  let p : Int := (a.toNat : Int) + (b.toNat : Int) - (c.toNat : Int)
  let pa := (p - (a.toNat : Int)).natAbs
  let pb := (p - (b.toNat : Int)).natAbs
  let pc := (p - (c.toNat : Int)).natAbs
  if pa ≤ pb ∧ pa ≤ pc then a else if pb ≤ pc then b else c

/-- The prediction of filter type `ft` from left, above and upper left byte. -/
def predict (ft : UInt8) (a b c : UInt8) : Option UInt8 :=
  match ft with
  | 0 => some 0
  | 1 => some a
  | 2 => some b
  | 3 => some (UInt8.ofNat ((a.toNat + b.toNat) / 2))
  | 4 => some (paeth a b c)
  | _ => none

/-- Reconstruct a scan line: `done` the bytes already reconstructed, `prev` the line above, `bpp` bytes per pixel; bytes
outside the image count as 0. -/
def unfilter (bpp : Nat) (ft : UInt8) (prev : Bytes) : Bytes → Bytes → Option Bytes
  | done, [] => some done
  | done, x :: xs =>
    let i := done.length
    let a := if i < bpp then 0 else done.getD (i - bpp) 0
    let b := prev.getD i 0
    let c := if i < bpp then 0 else prev.getD (i - bpp) 0
    match predict ft a b c with
    | none => none
    | some p => unfilter bpp ft prev (done ++ [x + p]) xs

/-- Reconstruct `h` lines of `w` pixels of `bpp` bytes, each preceded by its filter type. -/
def decode (bpp w : Nat) (prev : Bytes) : Nat → Bytes → Option (List Bytes)
  | 0, _ => some []
  | h + 1, z =>
    match z with
    | [] => none
    | ft :: z =>
      if z.length < bpp * w then none
      else
        match unfilter bpp ft prev [] (z.take (bpp * w)) with
        | none => none
        | some line => (decode bpp w line h (z.drop (bpp * w))).map (line :: ·)

/-- Channel `k` of the pixel at column `x`, line `y`. -/
def sample (bpp : Nat) (lines : List Bytes) (y x k : Nat) : Option UInt8 := lines[y]?.bind (·[bpp * x + k]?)

end Verif.PngSpec
