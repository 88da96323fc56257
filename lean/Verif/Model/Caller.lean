import Verif.Model.Units
/-
Model of what the library does with memory of the caller it is given a reference to: the dash slice of `SetCustomLineType`, the `Crop` and `Mask`
of `ImageOptions` and the `Transparency` of the drawing calls. Everything else is passed by value or copied before the call returns.
Simplifications: numbers are rational; a slice, struct or rectangle is one cell, and different names are different cells (no slices of one array);
of the mask the position and the size are kept (it is drawn when it is passed, into the soft mask); of an image the crop window only.
-/
namespace Verif.Caller
open Units

/-- `CropOptions` (gopdf.go 118-123). -/
structure Crop where
  x : ℚ
  y : ℚ
  w : ℚ
  h : ℚ
deriving DecidableEq, Repr

/-- The place of a mask: `MaskOptions.ImageOptions` with the fields `X`, `Y` and `Rect` (gopdf.go 105-140). -/
structure Mask where
  x : ℚ
  y : ℚ
  rect : Option Rect
deriving DecidableEq, Repr

/-- `Transparency` (transparency.go 34-38), the exported fields; the blend mode by number. -/
structure Tr where
  alpha : ℚ
  blend : Nat
deriving DecidableEq, Repr

/-- The memory of the caller: a value for each of the variables of each type. -/
structure Mem where
  dash : Nat → List ℚ
  crop : Nat → Crop
  mask : Nat → Mask
  tr : Nat → Tr

/-- What the caller does: an assignment to a variable, or a call with the variable. -/
inductive Act where
  | setDash (r : Nat) (v : List ℚ) | setCrop (r : Nat) (v : Crop) | setMask (r : Nat) (v : Mask) | setTr (r : Nat) (v : Tr)
  /-- `SetCustomLineType(r, phase)` -/
  | lineType (r : Nat) (phase : ℚ)
  /-- `ImageByHolderWithOptions` with `Crop: &r` -/
  | cropped (r : Nat)
  /-- `ImageByHolderWithOptions` with `Mask: &r` -/
  | masked (r : Nat)
  /-- a figure, cell or image with `Transparency: &r` or with none -/
  | draw (r : Option Nat)
  /-- `SetTransparency(v)` -/
  | setTransparency (v : Tr)
  /-- `ClearTransparency` -/
  | clearTransparency
deriving DecidableEq

/-- The part of an assignment. -/
def Mem.assign (m : Mem) : Act → Mem
  | .setDash r v => { m with dash := Function.update m.dash r v }
  | .setCrop r v => { m with crop := Function.update m.crop r v }
  | .setMask r v => { m with mask := Function.update m.mask r v }
  | .setTr r v => { m with tr := Function.update m.tr r v }
  | _ => m

/-- The alpha value a graphics state points to: the variable of the caller (`StrokingCA: &transparency.Alpha`, gopdf.go 2439-2440), or the
parameter of `SetTransparency`, which is a copy (gopdf.go 2401-2402). -/
inductive Ptr where
  | caller (r : Nat)
  | own (a : ℚ)
deriving DecidableEq

/-- What a content entry keeps: the dash slice itself (content_obj.go 315-320), the pointer to the crop window (content_obj.go 402), the value of the
mask's place (gopdf.go 530, `*opts.Mask`), the number of the graphics state (gopdf.go 512-514). -/
inductive Kept where
  | dash (r : Nat) (phase : ℚ)
  | crop (r : Nat)
  | mask (v : Mask)
  | state (i : Option Nat)
deriving DecidableEq

/-- The memory, the content entries, the graphics states with their blend modes (copied: `bm := transparency.BlendModeType`, gopdf.go 2436), the
cache by `Transparency.GetId` (transparency.go 58-62) and the current setting. The two caches (`transparencyMap`, `extGStatesMap`) always have
the same entries for settings of this kind; they are one here. -/
structure State where
  mem : Mem
  kept : List Kept := []
  states : List (Ptr × Nat) := []
  cache : List ((Int × Nat) × Nat) := []
  current : Option Nat := none

/-- The alpha a pointer points to now. -/
def Mem.alpha (m : Mem) : Ptr → ℚ
  | .caller r => (m.tr r).alpha
  | .own a => a

/-- `saveTransparency` (gopdf.go 2431-2456) of the setting `t`, the alpha being at `p`; `mill` is the number `%.3f` prints, in thousandths. -/
def State.save (mill : ℚ → Int) (s : State) (t : Tr) (p : Ptr) : State × Option Nat :=
  match s.cache.find? (fun x => x.1 = (mill t.alpha, t.blend)) with
  | some x => (s, some x.2)
  | none =>
    if t.alpha ≠ 1 then
      ({ s with states := s.states ++ [(p, t.blend)], cache := s.cache ++ [((mill t.alpha, t.blend), s.states.length)] }, some s.states.length)
    else (s, none)

/-- The place of a mask in points (gopdf.go 526-527). -/
def Mask.points (c : Cfg) (v : Mask) : Mask :=
  { x := toPoints c v.x, y := toPoints c v.y, rect := v.rect.map fun q => q.toPointsT c.unit }

/-- One action: an assignment, `SetCustomLineType` (gopdf.go 207-213), `ImageByHolderWithOptions` (gopdf.go 502-537), `getCachedTransparency`
(gopdf.go 2416-2429), `SetTransparency` (gopdf.go 2401-2410), `ClearTransparency` (gopdf.go 2412-2414). The dash slice and the mask's place are
converted to points where they are. -/
def State.step (c : Cfg) (mill : ℚ → Int) (s : State) : Act → State
  | .lineType r phase =>
    { s with mem := { s.mem with dash := Function.update s.mem.dash r ((s.mem.dash r).map (toPoints c)) }
             kept := s.kept ++ [.dash r (toPoints c phase)] }
  | .cropped r => { s with kept := s.kept ++ [.crop r] }
  | .masked r =>
    { s with mem := { s.mem with mask := Function.update s.mem.mask r ((s.mem.mask r).points c) }
             kept := s.kept ++ [.mask ((s.mem.mask r).points c)] }
  | .draw none => { s with kept := s.kept ++ [.state s.current] }
  | .draw (some r) =>
    { (s.save mill (s.mem.tr r) (.caller r)).1 with kept := s.kept ++ [.state (s.save mill (s.mem.tr r) (.caller r)).2] }
  | .setTransparency v => { (s.save mill v (.own v.alpha)).1 with current := (s.save mill v (.own v.alpha)).2 }
  | .clearTransparency => { s with current := none }
  | a => { s with mem := s.mem.assign a }

/-- The program of the caller. -/
def State.run (c : Cfg) (mill : ℚ → Int) (s : State) (p : List Act) : State := p.foldl (State.step c mill) s

/-- What stands in the file for one entry. -/
inductive Shown where
  | dash (a : List ℚ) (phase : ℚ)
  | crop (v : Crop)
  | mask (v : Mask)
  /-- alpha in thousandths and blend mode; nothing for an opaque drawing -/
  | alpha (v : Option (Int × Nat))
deriving DecidableEq

/-- Writing an entry at the end (cache_content_custom_line_type.go 13-16, cache_content_image.go 68-143, ext_g_state_obj.go 79-104): the slice,
the crop window and the alpha value are read then. -/
def State.show (mill : ℚ → Int) (s : State) : Kept → Shown
  | .dash r phase => .dash (s.mem.dash r) phase
  | .crop r => .crop (s.mem.crop r)
  | .mask v => .mask v
  | .state none => .alpha none
  | .state (some i) => .alpha (s.states[i]?.map fun g => (mill (s.mem.alpha g.1), g.2))

/-- What the file has of the program. -/
def written (c : Cfg) (mill : ℚ → Int) (m : Mem) (p : List Act) : List Shown :=
  ((State.run c mill { mem := m } p).kept).map ((State.run c mill { mem := m } p).show mill)

end Verif.Caller
