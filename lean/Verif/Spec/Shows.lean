import Verif.Spec.Used
import Verif.Spec.Viewer
import Verif.Spec.ObjectValue
import Verif.Spec.Pictures
import Verif.Model.Pictures
/-
Independent specification: that a figure a viewer paints uses, in the file, what the program asked for.
-/
namespace Verif.Viewer
open PdfObject FileReader
open Program (Used MaskUse)
open Canvas (Figure)

/-- A picture: the data of its image, and of its alpha channel. -/
structure Picture where
  data : Bytes
  alpha : Bytes

/-- What the caller's names stand for, and the file to look in. -/
structure Scene where
  decoder : Decoder
  file : Bytes
  page : Val
  prog : List Program.Call
  env : Content.Env
  widths : Paint.Widths
  /-- object `m` of the file holds picture `id` -/
  picture : (id m : Nat) → Prop
  csName : Nat → Bytes

/-- The graphics states `gs` set exactly the alpha and blend mode asked for (§11.6.4.4, table 58). -/
def Scene.Blends (s : Scene) (gs : List Nat) : Option (Nat × Nat) → Prop
  | none => gs = []
  | some (a, b) => ∃ n, gs = [n] ∧ Finds s.file s.page "ExtGState" "GS" n fun v =>
      Has "Type" "ExtGState" v ∧ v.get (lit "ca") = some (.num (a / 1000)) ∧ v.get (lit "CA") = some (.num (a / 1000)) ∧
      v.get (lit "BM") = some (.name (Objects.blendName b))

/-- `/I<n>` is an image that holds the picture `id`. -/
def Scene.Paints (s : Scene) (n id : Nat) : Prop :=
  ∃ m v data, resource s.file s.page "XObject" (lit "I" ++ dec n) = some m ∧ object s.file m = some (v, data) ∧
    Has "Subtype" "Image" v ∧ s.picture id m

/-- Object `m` has the data of the picture `id`; a picture that is used as a mask too may be there with its alpha channel only, one
that is only used as a mask is. -/
def HasData (c : Decoder) (file : Bytes) (prog : List Program.Call) (picture : Nat → Picture) (id m : Nat) : Prop :=
  ∃ bytes, imageData c file m = some bytes ∧ (bytes = (picture id).data ∨ bytes = (picture id).alpha) ∧
    (¬ Program.AsMask prog id → bytes = (picture id).data) ∧ (¬ Program.Drawn prog id → bytes = (picture id).alpha)

/-- Object `m` has the pixels of the PNG file `p` (if that is a good one) of picture `id`: its size and colours; its opacity, unless it
is drawn through a mask somewhere; and its opacity as shades of grey if it is only used as a mask and has an alpha channel.  A picture
that is both drawn and used as a mask is not covered: its first use decides (C35). -/
def PixelsOf (c : Decoder) (file : Bytes) (prog : List Program.Call) (p : Pictures.Png) (id m : Nat) : Prop :=
  p.Good c.inflate →
    (¬ Program.AsMask prog id → Pictures.SameColours c file p m) ∧
    (¬ Program.AsMask prog id → ¬ Program.DrawnMasked prog id → Pictures.SameOpacity c file p m) ∧
    (¬ Program.Drawn prog id → 4 ≤ p.ct → Pictures.OpacityAsGrey c file p m)

/-- The format of a file, as Go's image package sees it. -/
def formatIs (k : Pictures.Codec) (b : Bytes) (f : Pictures.Format) : Prop := ∃ h, k.header b = some h ∧ h.format = f

/-- Object `m` has the pixels of the PNG file given for picture `id`. -/
def HasPixels (k : Pictures.Codec) (c : Decoder) (file : Bytes) (prog : List Program.Call) (given : Nat → Bytes) (id m : Nat) : Prop :=
  ∀ p : Pictures.Png, given id = p.bytes → formatIs k p.bytes .png → PixelsOf c file prog p id m

/-- The colour spaces of JPEG files: three components are red, green and blue (a viewer undoes the YCbCr transformation, ISO 32000-1
table 13), one is grey, four are CMYK. -/
def jpegSpace : Pictures.ColorModel → Option String
  | .ycbcr => some "DeviceRGB"
  | .gray => some "DeviceGray"
  | .cmyk => some "DeviceCMYK"
  | .other => none

/-- Object `m` is the JPEG file `b` with the header `h`: the stream is the file, byte by byte, under the filter for JPEG files; size and
colour space are those of the file, with 8 bits for each component; nothing is masked out; and the components of CMYK files, which
are stored inverted, are inverted back (§8.9.5.2). -/
def IsJpeg (c : Decoder) (file : Bytes) (b : Bytes) (h : Pictures.Header) (m : Nat) : Prop :=
  imageData c file m = some b ∧ Pictures.pdfSize file m = some (h.width, h.height) ∧
  ∃ v stored space, object file m = some (v, some stored) ∧ jpegSpace h.model = some space ∧ Has "Subtype" "Image" v ∧
    Has "Filter" "DCTDecode" v ∧ Has "ColorSpace" space v ∧ Pictures.natAt v "BitsPerComponent" = some 8 ∧
    v.get (lit "DecodeParms") = none ∧ v.get (lit "Mask") = none ∧ v.get (lit "SMask") = none ∧
    v.get (lit "Decode") = if h.model = .cmyk then some (.arr [.num 1, .num 0, .num 1, .num 0, .num 1, .num 0, .num 1, .num 0]) else none

/-- Object `m` shows the JPEG or GIF file given for picture `id`: a JPEG file is there unchanged; of a GIF file the pixels of the PNG file
Go converts it to. -/
def HasFile (k : Pictures.Codec) (c : Decoder) (file : Bytes) (prog : List Program.Call) (given : Nat → Bytes) (id m : Nat) : Prop :=
  (∀ h, k.header (given id) = some h → h.format = .jpeg → ¬ Program.AsMask prog id → IsJpeg c file (given id) h m) ∧
  (∀ p : Pictures.Png, formatIs k (given id) .gif → k.convert (given id) = some p.bytes → formatIs k p.bytes .png → PixelsOf c file prog p id m)

/-- `/GS<n>` masks with the luminosity (§11.6.5.2) of a group that paints the mask's picture and nothing else, where the mask's
options say, with the mask's transparency.  The names in the group's stream are those of the page. -/
def Scene.Masks (s : Scene) (n : Nat) (m : MaskUse) : Prop :=
  ∃ k v d1 sm v2 d2 g v3 data o exact x gs r,
    resource s.file s.page "ExtGState" (lit "GS" ++ dec n) = some k ∧ object s.file k = some (v, d1) ∧
    v.get (lit "SMask") = some (.ref sm) ∧ object s.file sm = some (v2, d2) ∧ Has "S" "Luminosity" v2 ∧
    v2.get (lit "G") = some (.ref g) ∧ object s.file g = some (v3, some data) ∧ Has "Subtype" "Form" v3 ∧
    ContentReader.operators (s.decoder.decrypt g data) = some o ∧ List.Forall₂ ContentReader.NearOp o exact ∧
    Paint.run s.widths {} exact = some r ∧
    Canvas.figures r.marks = [.image x (Canvas.imageMatrix s.env m.height m.item) gs] ∧ r.marks.length = 1 ∧
    s.Paints x m.picture ∧ s.Blends gs m.setting

/-- The graphics states of a figure. -/
def Scene.States (s : Scene) (ext : List Nat) (u : Used) : Prop :=
  ∃ gs1 gs2, ext = gs1 ++ gs2 ∧ s.Blends gs1 u.setting ∧
    match u.mask with
    | none => gs2 = []
    | some m => ∃ n, gs2 = [n] ∧ s.Masks n m

/-- The colour strokes are painted with: one in the colour space asked for, or a plain colour. -/
def Scene.Strokes (s : Scene) (c : Paint.Colour) : Option Nat → Prop
  | none => ∀ n, c ≠ .named n
  | some name => ∃ n, c = .named n ∧ Finds s.file s.page "ColorSpace" "CS" n fun v =>
      ∃ l, v = .arr (.name (lit "Separation") :: .name (s.csName name) :: l)

/-- A figure uses what was asked for. -/
def Scene.Shows (s : Scene) : Figure → Used → Prop
  | .path _ _ pen ext, u => u.picture = none ∧ s.States ext u ∧ s.Strokes pen.stroke u.space
  | .image n _ ext, u => ∃ id, u.picture = some id ∧ s.Paints n id ∧ s.States ext u
  | .template _ _, u => u = {}

end Verif.Viewer
