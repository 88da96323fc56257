import Verif.Model.PNG
import Verif.Model.Objects
/-
From a picture file to the image object (`parseImg`, image_obj_parse.go 137-188, and the uses of its result in gopdf.go).  Go's image
packages are parameters (`Codec`): `image.DecodeConfig`, which looks at the beginning of a file, and the conversion of a GIF file
with `image.Decode` and `png.Encode`.
-/
namespace Verif.Pictures
open Objects

/-- The formats `image.DecodeConfig` tells apart (image_obj_parse.go 147, 159, 164, 181), and the colour models of
JPEG files (191-200). -/
inductive Format where
  | jpeg | png | gif | other
  deriving DecidableEq, Repr

inductive ColorModel where
  | ycbcr | gray | cmyk | other
  deriving DecidableEq, Repr

/-- The result of `image.DecodeConfig` (image_obj_parse.go 141). -/
structure Header where
  format : Format
  model : ColorModel
  width : Nat
  height : Nat

/-- Go's packages: `image.DecodeConfig` (image_obj_parse.go 141), a GIF file as a PNG file (167-176), zlib reading (398-404) and
writing (456-462). -/
structure Codec where
  header : Bytes → Option Header
  convert : Bytes → Option Bytes
  inflate : Bytes → Option Bytes
  deflate : Bytes → Bytes

/-- image_obj_parse.go 257-267 and 384-394: the fields `writeImgProps` prints.  `Indexed` (image_obj_parse.go 115-120) is a flag of the
image object; its colour space is never printed. -/
def lookOf (p : PNG.Info) : Look :=
  { w := p.w, h := p.h, bpc := p.bpc, space := if p.colspace = lit "DeviceGray" then .gray else .rgb, jpeg := false, colors := p.colors,
    pal := p.pal, trns := p.trns.getD [], data := p.data, smask := p.smask.getD [] }

/-- image_obj_parse.go 115-127 `isColspaceIndexed`, `haveSMask`: has it an alpha channel, has it a palette? -/
def flagsOf (p : PNG.Info) : Bool × Bool := (p.smask.getD [] ≠ [], p.colspace = lit "Indexed")

/-- image_obj_parse.go 213-468: the result of `parsePng`; `none` if the file is refused.  (A crash of the parser, C32, is `none` too:
the program ends.) -/
def pngLook (k : Codec) (b : Bytes) : Option (Look × (Bool × Bool)) :=
  match PNG.parsePng k.inflate k.deflate b with
  | .ok i => some (lookOf i, flagsOf i)
  | .error _ => none

/-- image_obj_parse.go 191-200. -/
def spaceOfModel : ColorModel → Option Space
  | .ycbcr => some .rgb
  | .gray => some .gray
  | .cmyk => some .cmyk
  | .other => none

/-- image_obj_parse.go 190-208 `parseImgJpg`, and the data (153-157): the file itself. -/
def parseJpg (h : Header) (b : Bytes) : Option (Look × (Bool × Bool)) :=
  (spaceOfModel h.model).map fun s =>
    ({ w := h.width, h := h.height, bpc := 8, space := s, jpeg := true, colors := 0, pal := [], trns := [], data := b, smask := [] }, (false, false))

/-- image_obj_parse.go 137-188 `parseImg` for a file that is not a GIF file. -/
def parseFlat (k : Codec) (b : Bytes) : Option (Look × (Bool × Bool)) :=
  (k.header b).bind fun h => match h.format with
    | .jpeg => parseJpg h b
    | .png => pngLook k b
    | _ => none

/-- image_obj_parse.go 137-188 `parseImg`.  Of a GIF file the PNG file it is converted to is parsed; that this is no GIF file itself
is a simplification: the code would go on converting. -/
def parseImg (k : Codec) (b : Bytes) : Option (Look × (Bool × Bool)) :=
  (k.header b).bind fun h => match h.format with
    | .gif => (k.convert b).bind (parseFlat k)
    | _ => parseFlat k b

/-- image_obj.go 190-200 `parse`: what the image cache keeps of a file, has it an alpha channel, has it a palette; `none` if it
cannot be parsed. -/
def parsed (k : Codec) (b : Bytes) : Option (Bool × Bool) := (parseImg k b).map (·.2)

end Verif.Pictures
