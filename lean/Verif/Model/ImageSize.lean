import Verif.Model.Content
/-
The options of an image call: unit conversion, the size used, and the cache of sizes (gopdf.go 488-606, 650-731;
image_obj.go 158-188).  After the first page was added (`indexOfProcSet ≠ -1`).
Simplifications: exact rational arithmetic; the cache is a list, the code uses a map from object numbers - the loop over it
looks for the image's id, which at most one entry has; the file's decoding is the given size in pixels.
-/
namespace Verif.ImageSize
open Units (Rect Cfg toPoints)
open Content (Crop ImageItem)

/-- `ImageOptions` (gopdf.go 125-136) as the user fills it, with the image's id; positions and size in the document's unit. -/
structure Options where
  id : List UInt8
  x : ℚ
  y : ℚ
  rect : Option Rect := none
  crop : Option Crop := none
  angle : ℚ := 0
  verticalFlip : Bool := false
  horizontalFlip : Bool := false
  deriving DecidableEq, Repr

/-- Go's division of integers, which panics for 0. -/
def goDiv (a b : Int) : Option Int := if b = 0 then none else some (a.tdiv b)

/-- `getRect` (image_obj.go 158-188) for an image of `dx` by `dy` pixels; `none`: a panic. -/
def naturalRect (dx dy : Nat) : Option Rect :=
  let w : Int := (-(dx : Int) * 72).tdiv (-128)
  let h : Int := (-(dy : Int) * 72).tdiv (-128)
  (if w = 0 then goDiv (h * dx) dy else some w).bind fun w =>
    (if h = 0 then goDiv (w * dy) dx else some h).map fun h => { w := w, h := h }

/-- `ImgCaches` (current.go): the size first used for an image. -/
abbrev Cache := List (List UInt8 × Rect)

/-- The size used and the new cache: `imageByHolder` (gopdf.go 650-731) and `maskHolder` (540-606) do the same.
`px`: the sizes of the images in pixels. -/
def sizeFor (px : List UInt8 → Nat × Nat) (cache : Cache) (id : List UInt8) (rect : Option Rect) : Option (Cache × Rect) :=
  match cache.find? (fun p => p.1 = id) with
  | some p => some (cache, rect.getD p.2)
  | none => match rect with
    | some r => some (cache ++ [(id, r)], r)
    | none => (naturalRect (px id).1 (px id).2).map fun r => (cache ++ [(id, r)], r)

/-- `ImageByHolder` (488-500), `ImageByHolderWithOptions` (502-538) and `GetCacheContentImage` (content_obj.go 382-404) without a
mask: the new cache and the item appended (`index`: the number of the image's object; page height and graphics states are set
elsewhere).  The crop window is not converted. -/
def drawImage (cfg : Cfg) (px : List UInt8 → Nat × Nat) (cache : Cache) (o : Options) (index : Nat) : Option (Cache × ImageItem) :=
  (sizeFor px cache o.id (o.rect.map (·.toPointsT cfg.unit))).map fun r =>
    (r.1, { withMask := false, maskAngle := 0, imageAngle := o.angle, verticalFlip := o.verticalFlip,
            horizontalFlip := o.horizontalFlip, index := index, x := toPoints cfg o.x, y := toPoints cfg o.y, pageHeight := 0,
            rect := r.2, crop := o.crop, ext := [] })

/-- A history of images drawn or used as masks: the sizes used. -/
def sizes (cfg : Cfg) (px : List UInt8 → Nat × Nat) : Cache → List (List UInt8 × Option Rect) → Option (List Rect)
  | _, [] => some []
  | cache, (id, rect) :: rest =>
    (sizeFor px cache id (rect.map (·.toPointsT cfg.unit))).bind fun r => (sizes cfg px r.1 rest).map (r.2 :: ·)

end Verif.ImageSize
