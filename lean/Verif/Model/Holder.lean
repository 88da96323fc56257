import Mathlib.Logic.Function.Basic
/-
Image holders and the images of documents: image_holder.go, gopdf.go 488-604 (`ImageByHolder`, `ImageByHolderWithOptions`, `maskHolder`),
650-798 (`imageByHolder`, `Image`, `ImageFrom`, `ImageFromWithOption`).  Which bytes an image object is made from; how they are written is Model/Pictures.lean, where it is
drawn Model/Content.lean.

Simplifications:
* MD5 is a parameter; strings are bytes; the files are a function that the caller may change at any time;
* an image object is the bytes it was made from and what it is for.  `accepts sized` tells whether `parse` (and `getRect` if no size is given) reads them;
* holders are the package's own (the interface could be implemented by the caller).
-/
namespace Verif.Holder

abbrev Bytes := List Nat

/-- `imageBuff` (image_holder.go 33-36): its name, and what of its data has not been read yet. -/
structure Holder where
  id : Bytes
  unread : Bytes
deriving DecidableEq

/-- What an image object is made for (image_obj.go 21-22: `IsMask`, `SplittedMask`; image_obj.go 44-53 and image_obj_parse.go 43-100): a picture
with its own transparency, a picture without it (a mask takes its place), a mask - only the transparency. -/
inductive Kind where
  | plain
  | masked
  | mask
deriving DecidableEq

/-- An image object, and the name it is found by (`ImageCache`, image_cache.go). -/
structure Image where
  id : Bytes
  data : Bytes
  kind : Kind
deriving DecidableEq

/-- `ImgCaches` of a document (current.go 31-32): the images so far.  The order of the map is
arbitrary; no name is in it twice (`stored_once`). -/
structure Document where
  images : List Image := []

/-- Everything: the files, the holders made so far, the documents. -/
structure World where
  files : Bytes → Option Bytes
  holders : List Holder := []
  docs : Nat → Document := fun _ => {}

structure Env where
  md5 : Bytes → Bytes
  accepts : Bool → Bytes → Bool

/-- What the caller does. -/
inductive Act where
  /-- a file gets new contents -/
  | write (path data : Bytes)
  /-- ImageHolderByBytes, ImageHolderByReader -/
  | byBytes (data : Bytes)
  /-- ImageHolderByPath -/
  | byPath (path : Bytes)
  /-- ImageByHolder, ImageByHolderWithOptions: document, holder, holder of the mask; each with a size? -/
  | draw (d h : Nat) (mask : Option (Nat × Bool)) (sized : Bool)
  /-- Image -/
  | image (d : Nat) (path : Bytes) (sized : Bool)
  /-- ImageFrom, ImageFromWithOption: `data` is what the encoder makes of the image -/
  | imageFrom (d : Nat) (data : Bytes) (sized : Bool)
  /-- Start -/
  | start (d : Nat)

/-- What the caller sees: nothing, an error, or a drawing made from these data, through a mask made from those; each with what
the image was made for. -/
inductive Out where
  | done
  | err
  | shows (data : Bytes × Kind) (mask : Option (Bytes × Kind))
deriving DecidableEq

/-- Two lower-case hexadecimal digits (`%x`). -/
def hexByte (b : Nat) : Bytes := [b / 16, b % 16].map fun d => if d < 10 then 48 + d else 87 + d

/-- `newImageBuff`, `newImageBuffByReader` (image_holder.go 38-80). -/
def ofBytes (e : Env) (b : Bytes) : Holder := ⟨(e.md5 b).flatMap hexByte, b⟩

/-- `newImageBuffByPath` (image_holder.go 50-60). -/
def ofPath (files : Bytes → Option Bytes) (path : Bytes) : Option Holder := (files path).map fun b => ⟨path, b⟩

/-- `imageByHolder` (gopdf.go 650-730), and the part of `maskHolder` before the group (540-593): an image of that name is used again;
else what the holder still has is read - all of it - and becomes a new image if it can be parsed. -/
def place (e : Env) (kind : Kind) (sized : Bool) (doc : Document) (h : Holder) : Holder × Document × Option (Bytes × Kind) :=
  match doc.images.find? (fun p => p.id = h.id) with
  | some p => (h, doc, some (p.data, p.kind))
  | none =>
    if e.accepts sized h.unread then
      ({ h with unread := [] }, { images := doc.images ++ [⟨h.id, h.unread, kind⟩] }, some (h.unread, kind))
    else ({ h with unread := [] }, doc, none)

/-- ... with a holder of the world. -/
def World.place (e : Env) (kind : Kind) (sized : Bool) (w : World) (d h : Nat) : World × Option (Bytes × Kind) :=
  match w.holders[h]? with
  | none => (w, none)
  | some x =>
    ({ w with holders := w.holders.set h (Holder.place e kind sized (w.docs d) x).1, docs := Function.update w.docs d (Holder.place e kind sized (w.docs d) x).2.1 },
      (Holder.place e kind sized (w.docs d) x).2.2)

/-- ... with a holder that nobody else has. -/
def World.once (e : Env) (sized : Bool) (w : World) (d : Nat) (h : Holder) : World × Out :=
  ({ w with docs := Function.update w.docs d (Holder.place e .plain sized (w.docs d) h).2.1 },
    match (Holder.place e .plain sized (w.docs d) h).2.2 with
    | none => .err
    | some b => .shows b none)

def step (e : Env) (w : World) : Act → World × Out
  | .write path data => ({ w with files := Function.update w.files path (some data) }, .done)
  | .byBytes b => ({ w with holders := w.holders ++ [ofBytes e b] }, .done)
  | .byPath path => match ofPath w.files path with
    | none => (w, .err)
    | some h => ({ w with holders := w.holders ++ [h] }, .done)
  /- gopdf.go 488-500 -/
  | .draw d h none sized => match w.place e .plain sized d h with
    | (w1, none) => (w1, .err)
    | (w1, some b) => (w1, .shows b none)
  /- gopdf.go 502-538: the mask first -/
  | .draw d h (some (m, z)) sized => match w.place e .mask z d m with
    | (w1, none) => (w1, .err)
    | (w1, some c) => match w1.place e .masked sized d h with
      | (w2, none) => (w2, .err)
      | (w2, some b) => (w2, .shows b (some c))
  /- gopdf.go 733-748: a holder that nobody else has -/
  | .image d path sized => match ofPath w.files path with
    | none => (w, .err)
    | some h => w.once e sized d h
  /- gopdf.go 759-798 -/
  | .imageFrom d data sized => w.once e sized d (ofBytes e data)
  /- gopdf.go 2158: `ImgCaches` is made anew -/
  | .start d => ({ w with docs := Function.update w.docs d {} }, .done)

/-- The world after the acts. -/
def run (e : Env) : World → List Act → World
  | w, [] => w
  | w, a :: rest => run e (step e w a).1 rest

end Verif.Holder
