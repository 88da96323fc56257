import Verif.Spec.PNG
import Verif.Spec.FileReader
/-
Independent specification: the pixels of a PNG file (ISO/IEC 15948) and the pixels a viewer finds in an image of a PDF file
(ISO 32000-1 §8.9.5), and that they are the same.
-/
namespace Verif.Pictures
open PdfObject FileReader PngSpec

/-! ### Rasters -/

/-- Rows of packed samples: `comps` samples of `bits` bits for every pixel, most significant bits first, every row starting with a
byte of its own (ISO/IEC 15948 §7.2, ISO 32000-1 §8.9.3). -/
structure Raster where
  width : Nat
  height : Nat
  bits : Nat
  comps : Nat
  rows : List Bytes

/-- Sample `k` of the pixel in column `x` of row `y`. -/
def Raster.sample (r : Raster) (x y k : Nat) : Option Nat :=
  (r.rows[y]?.bind fun row => row[(x * r.comps + k) * r.bits / 8]?).map fun b =>
    b.toNat / 2 ^ (8 - r.bits - (x * r.comps + k) * r.bits % 8) % 2 ^ r.bits

/-- All samples of a pixel. -/
def Raster.samples (r : Raster) (x y : Nat) : Option (List Nat) := sequence ((List.range r.comps).map (r.sample x y))

/-- Undo the filters of `h` rows of `len` bytes, each preceded by its filter type; `bpp` bytes to the left is the pixel before. -/
def unfilterRows (bpp len : Nat) (prev : Bytes) : Nat → Bytes → Option (List Bytes)
  | 0, _ => some []
  | h + 1, z =>
    match z with
    | [] => none
    | ft :: z =>
      if z.length < len then none
      else
        match unfilter bpp ft prev [] (z.take len) with
        | none => none
        | some line => (unfilterRows bpp len line h (z.drop len)).map (line :: ·)

/-- Filtered rows of pixels: a filter looks back by the bytes of a pixel, rounded up; rows are padded to bytes (ISO/IEC 15948 §9.2,
ISO 32000-1 §7.4.4.4). -/
def decodeRows (comps bits w h : Nat) (z : Bytes) : Option (List Bytes) :=
  unfilterRows ((comps * bits + 7) / 8) ((comps * bits * w + 7) / 8) [] h z

/-- The colour of a pixel: one component is grey, three are red, green and blue, each from 0 to `max`. -/
structure Colour where
  comps : List Nat
  max : Nat
  deriving DecidableEq, Repr

/-- Entry `i` of a palette: three bytes. -/
def entry (pal : Bytes) (i : Nat) : Option Colour :=
  (sequence [pal[3 * i]?, pal[3 * i + 1]?, pal[3 * i + 2]?]).map fun l => ⟨l.map (·.toNat), 255⟩

/-! ### PNG files -/

/-- A PNG file that is not interlaced: header, chunks, and the check bytes of header and end. -/
structure Png where
  width : Nat
  height : Nat
  depth : Nat
  /-- 0 grey, 2 RGB, 3 palette, 4 grey and alpha, 6 RGB and alpha -/
  ct : Nat
  hcrc : Bytes
  chunks : List Chunk
  ecrc : Bytes

def Png.bytes (p : Png) : Bytes := PngSpec.file p.width p.height p.depth p.ct p.hcrc p.chunks p.ecrc

/-- Samples per pixel, without and with alpha. -/
def Png.colours (p : Png) : Nat := if p.ct = 2 ∨ p.ct = 6 then 3 else 1
def Png.channels (p : Png) : Nat := if 4 ≤ p.ct then p.colours + 1 else p.colours

/-- The samples. -/
def Png.raster (inflate : Bytes → Option Bytes) (p : Png) : Option Raster :=
  ((inflate (idat p.chunks)).bind (decodeRows p.channels p.depth p.width p.height)).map
    fun rows => ⟨p.width, p.height, p.depth, p.channels, rows⟩

/-- The data of the `tRNS` chunk. -/
def Png.trns (p : Png) : Option Bytes := (p.chunks.find? fun c => c.typ = lit "tRNS").map (·.data)

/-- The numbers in a `tRNS` chunk for grey and RGB: two bytes each. -/
def words : Bytes → List Nat
  | a :: b :: l => (256 * a.toNat + b.toNat) :: words l
  | _ => []

/-- The colour of a pixel (ISO/IEC 15948 §6.1). -/
def Png.colour (inflate : Bytes → Option Bytes) (p : Png) (x y : Nat) : Option Colour :=
  ((p.raster inflate).bind (·.samples x y)).bind fun s =>
    if p.ct = 3 then entry (palette [] p.chunks) (s.headD 0) else some ⟨s.take p.colours, 2 ^ p.depth - 1⟩

/-- The opacity of a pixel, from 0 to 255, for a file with at most 8 bits per sample (§11.3.2): the alpha sample; or that of its
palette entry; or 0 for the one transparent colour. -/
def Png.opacity (inflate : Bytes → Option Bytes) (p : Png) (x y : Nat) : Option Nat :=
  ((p.raster inflate).bind (·.samples x y)).map fun s =>
    if 4 ≤ p.ct then s.getD p.colours 0
    else match p.trns with
      | none => 255
      | some t => if p.ct = 3 then (t.getD (s.headD 0) 255).toNat else if words t = s then 0 else 255

/-! ### Images in PDF files -/

/-- A dictionary's natural number. -/
def natAt (v : Val) (key : String) : Option Nat := match v.get (lit key) with
  | some (.num q) => ContentReader.nat q
  | _ => none

/-- The samples of the image XObject `n`, compressed with `FlateDecode` and filtered in rows of its own width (`/DecodeParms`,
§7.4.4.3, table 8; `comps` the number of components of its colour space). -/
def pdfRaster (c : Decoder) (file : Bytes) (n comps : Nat) : Option Raster := do
  let (v, data) ← object file n
  let w ← natAt v "Width"
  let h ← natAt v "Height"
  let bits ← natAt v "BitsPerComponent"
  let parms ← v.get (lit "DecodeParms")
  let stored ← data
  match v.get (lit "Filter") with
  | some (.name f) => if f ≠ lit "FlateDecode" then none else
    if natAt parms "Predictor" = some 15 ∧ natAt parms "Colors" = some comps ∧ natAt parms "BitsPerComponent" = some bits ∧
        natAt parms "Columns" = some w then do
      let z ← c.inflate (c.decrypt n stored)
      let rows ← decodeRows comps bits w h z
      some ⟨w, h, bits, comps, rows⟩
    else none
  | _ => none

/-- Colour spaces of images: device spaces, or RGB colours in a palette (§8.6.4, 8.6.6.3). -/
inductive Space where
  | gray
  | rgb
  | indexed (last : Nat) (palette : Bytes)

def Space.comps : Space → Nat
  | .rgb => 3
  | _ => 1

/-- The colour space of the image `n`. -/
def pdfSpace (c : Decoder) (file : Bytes) (n : Nat) : Option Space := do
  let (v, _) ← object file n
  match v.get (lit "ColorSpace") with
  | some (.name s) => if s = lit "DeviceGray" then some .gray else if s = lit "DeviceRGB" then some .rgb else none
  | some (.arr [.name i, .name b, .num last, .ref m]) =>
    if i = lit "Indexed" ∧ b = lit "DeviceRGB" then do
      let last ← ContentReader.nat last
      let pal ← imageData c file m
      some (.indexed last pal)
    else none
  | _ => none

/-- The colour of a pixel of the image `n`.  A viewer that knows no `/Decode` arrays: there must be none. -/
def pdfColour (c : Decoder) (file : Bytes) (n x y : Nat) : Option Colour := do
  let (v, _) ← object file n
  let space ← pdfSpace c file n
  let r ← pdfRaster c file n space.comps
  let s ← r.samples x y
  if (v.get (lit "Decode")).isSome then none else
  match space with
  | .indexed last pal => if s.headD 0 ≤ last then entry pal (s.headD 0) else none
  | _ => some ⟨s, 2 ^ r.bits - 1⟩

/-- A colour key mask (§8.9.6.4): for every component a range of samples; pixels inside all of them are not painted. -/
def inKey : List Nat → List Val → Prop
  | [], [] => True
  | s :: l, .num a :: .num b :: k => a ≤ s ∧ s ≤ b ∧ inKey l k
  | _, _ => False

open Classical in
/-- The opacity of a pixel of the image `n`, from 0 to 255: from its soft mask, an image of the same size in grey with 8 bits
(§11.6.5.3), otherwise from its colour key. -/
noncomputable def pdfOpacity (c : Decoder) (file : Bytes) (n x y : Nat) : Option Nat := do
  let (v, _) ← object file n
  let space ← pdfSpace c file n
  let r ← pdfRaster c file n space.comps
  let s ← r.samples x y
  match v.get (lit "SMask") with
  | some (.ref m) =>
    match pdfSpace c file m, pdfRaster c file m 1 with
    | some .gray, some a => if a.width = r.width ∧ a.height = r.height ∧ a.bits = 8 then a.sample x y 0 else none
    | _, _ => none
  | some _ => none
  | none =>
    match v.get (lit "Mask") with
    | none => some 255
    | some (.arr key) => some (if inKey s key then 0 else 255)
    | some _ => none

/-! ### The same picture -/

/-- The size of the image `n`. -/
def pdfSize (file : Bytes) (n : Nat) : Option (Nat × Nat) := do
  let (v, _) ← object file n
  let w ← natAt v "Width"
  let h ← natAt v "Height"
  some (w, h)

/-- The image `n` has the size and the colours of the PNG file. -/
def SameColours (c : Decoder) (file : Bytes) (p : Png) (n : Nat) : Prop :=
  pdfSize file n = some (p.width, p.height) ∧
  ∀ x y colour, x < p.width → y < p.height → p.colour c.inflate x y = some colour → pdfColour c file n x y = some colour

/-- The image `n` has the opacity of the PNG file. -/
def SameOpacity (c : Decoder) (file : Bytes) (p : Png) (n : Nat) : Prop :=
  ∀ x y a, x < p.width → y < p.height → p.opacity c.inflate x y = some a → pdfOpacity c file n x y = some a

/-- The image `n` shows the opacity of the PNG file in shades of grey. -/
def OpacityAsGrey (c : Decoder) (file : Bytes) (p : Png) (n : Nat) : Prop :=
  pdfSize file n = some (p.width, p.height) ∧
  ∀ x y a, x < p.width → y < p.height → p.opacity c.inflate x y = some a → pdfColour c file n x y = some ⟨[a], 255⟩

/-- A chunk as the standard has it, and not empty (an empty chunk ends gopdf's reading, C32). -/
structure GoodChunk (c : Chunk) : Prop where
  typ : c.typ.length = 4
  crc : c.crc.length = 4
  notEnd : c.typ ≠ lit "IEND"
  small : c.data.length < 2 ^ 32
  nonempty : c.data ≠ []

/-- The files in question: at most 8 bits per sample; samples that can be read; a palette that is not all white space (gopdf refuses
it) and consists of colours; at most one `tRNS` chunk, of the right size; for a palette, one that makes at most one entry fully
transparent and leaves the others alone (`palette_opacity_lost_fails`). -/
structure Png.Good (inflate : Bytes → Option Bytes) (p : Png) : Prop where
  width : p.width < 2 ^ 32
  height : p.height < 2 ^ 32
  kind : (p.ct = 0 ∧ p.depth ∈ [1, 2, 4, 8]) ∨ (p.ct = 2 ∧ p.depth = 8) ∨ (p.ct = 3 ∧ p.depth ∈ [1, 2, 4, 8]) ∨
    (p.ct = 4 ∧ p.depth = 8) ∨ (p.ct = 6 ∧ p.depth = 8)
  hcrc : p.hcrc.length = 4
  chunks : ∀ c ∈ p.chunks, GoodChunk c
  samples : (p.raster inflate).isSome
  palette : p.ct = 3 → (∃ b ∈ palette [] p.chunks, b ≠ 32 ∧ ¬ (9 ≤ b ∧ b ≤ 13)) ∧ 3 ∣ (palette [] p.chunks).length
  onetrns : (p.chunks.filter fun c => c.typ = lit "tRNS").length ≤ 1
  trnsGrey : p.ct = 0 → ∀ t, p.trns = some t → ∃ v, t = [0, v]
  trnsRGB : p.ct = 2 → ∀ t, p.trns = some t → ∃ r g b, t = [0, r, 0, g, 0, b]
  trnsPal : p.ct = 3 → ∀ t, p.trns = some t → t.length ≤ 256 ∧ (∀ a ∈ t, a = 0 ∨ a = 255) ∧ t.count 0 ≤ 1
  noAlphaKey : 4 ≤ p.ct → p.trns = none

end Verif.Pictures
