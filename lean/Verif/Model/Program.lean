import Verif.Model.Content
import Verif.Model.ContentBytes
import Verif.Spec.DocMarks
/-
A program using the library: every call acts on the objects of the document (Model/Doc.lean) and on what is drawn
(Model/Content.lean) at once.

Simplifications:
* `SetPage` and writing the document before the end are left out: a program adds pages, draws, and is compiled once;
* header and footer functions are spliced in after the AddPage (see Model/Doc.lean);
* a call that draws before the first page is there goes to a stream that belongs to no page: it is `pages[0]` of the content
  state; the content of the first page is `pages[1]`;
* the resource numbers a call writes are those the document's bookkeeping found for it: in Go both are the same variable
  (`opts.extGStateIndexes`, `index`, `CountOfSpaceColor`), here they are read off the entry the document keeps for the call.
  The font number and the current transparency of later calls are state (`curr.FontFontCount`, `curr.transparency`) in both models.
-/
namespace Verif.Program
open Paint (PaintKind)

/-- The calls.  Drawing calls without resources of their own, settings and cursor movements are `plain`; calls that only add
objects (AddTTFFont..., AddColorSpace..., AddExternalLink, AddInternalLink, SetAnchor, AddOutline, imports) are `object`. -/
inductive Call where
  | object (op : Doc.Op)
  | plain (c : Content.Call)
  | addPage (height : ℚ)
  | setFont (family style : Nat) (size : ℚ)
  | setTransparency (t : Doc.Tr)
  | clearTransparency
  | setColourSpace (name : Nat)
  | text (t : List Nat)
  | cell (rect : Option Units.Rect) (t : List Nat)
  | cellWithOption (rect : Option Units.Rect) (t : List Nat) (opt : Content.CellOption) (tr : Option Doc.Tr)
  | line (x1 y1 x2 y2 : ℚ)
  | polygon (points : List (ℚ × ℚ)) (style : PaintKind)
  | rectLowerOpt (x y w h : ℚ) (style : PaintKind) (tr : Option Doc.Tr)
  | rectUpperOpt (x y w h : ℚ) (style : PaintKind) (tr : Option Doc.Tr)
  /-- Image, ImageByHolder -/
  | image (img : Doc.Img) (i : Content.ImageItem)
  /-- ImageByHolderWithOptions; the mask has its own picture, place and transparency -/
  | imageOpt (img : Doc.Img) (i : Content.ImageItem) (tr : Option Doc.Tr) (mask : Option (Doc.Img × Content.ImageItem × Option Doc.Tr))

/-- Which operations may stand in `object`. -/
def objectOp : Doc.Op → Bool
  | .addFont _ _ _ | .addColorSpace _ | .externalLink | .internalLink _ | .setAnchor _ _ | .addOutline _ | .importObjects _ => true
  | _ => false

/-- Which calls may stand in `plain`: `none` - not this one; `some none` - it writes nothing; `some (some b)` - it appends to the
content, and reads the page size if `b` (content_obj.go 235-464). -/
def plainCall : Content.Call → Option (Option Bool)
  | .setX _ | .setY _ | .setXY _ _ | .br _ | .setFontSize _ | .setCharSpacing _ | .setTextColour _ => some none
  | .setGrayFill _ | .setGrayStroke _ | .setColour _ _ _ _ | .setColourCMYK _ _ _ _ _ | .setLineWidth _ | .setLineType _ _
  | .setCustomLineType _ _ | .save | .restore | .rotateReset => some (some false)
  | .rectLower _ _ _ _ | .rectUpper _ _ _ _ | .oval _ _ _ _ | .curve _ _ _ _ _ | .clipPolygon _ | .rotate _ _ _
  | .template _ _ _ _ _ => some (some true)
  | _ => none

/-- What a call does to the document, `tag` being the number of the call.  `none`: not a call; `some none`: nothing. -/
def docOp (tag : Nat) : Call → Option (Option Doc.Op)
  | .object op => if objectOp op then some (some op) else none
  | .plain c => (plainCall c).map fun b => b.map (Doc.Op.draw tag)
  /- gopdf.go 806-849 -/
  | .addPage _ => some (some .addPage)
  /- gopdf.go 955-986 -/
  | .setFont f s _ => some (some (.setFont f s))
  /- gopdf.go 2401-2414 -/
  | .setTransparency t => some (some (.setTransparency t))
  | .clearTransparency => some (some .clearTransparency)
  /- gopdf.go 2497-2522 -/
  | .setColourSpace name => some (some (.setColorSpace tag name))
  /- gopdf.go 1105-1163 -/
  | .text _ | .cell _ _ => some (some (.text tag))
  | .cellWithOption _ _ _ tr => some (some (.cell tag tr))
  /- gopdf.go 224-235, 1993-2014: the current transparency -/
  | .line _ _ _ _ | .polygon _ _ => some (some (.drawTr tag none))
  /- gopdf.go 283-335 -/
  | .rectLowerOpt _ _ _ _ _ tr | .rectUpperOpt _ _ _ _ _ tr => some (some (.drawTr tag tr))
  /- gopdf.go 488-538 -/
  | .image img _ => some (some (.image tag img))
  | .imageOpt img _ tr mask => some (some (.imageOpt tag img tr (mask.map fun m => (m.1, m.2.2))))

/-- A transparency of the call's own, by number. -/
def ownTr (tr : Option Doc.Tr) (found : Doc.Entry) : Option (Option Nat) := tr.map fun _ => found.gs.head?

/-- What a call that succeeded draws; `d` is the document after it and `found` the entry made for it. -/
def contentCall (d : Doc.Doc) (found : Doc.Entry) : Call → Option Content.Call
  | .object _ => none
  | .plain c => some c
  | .addPage h => some (.addPage h)
  | .setFont _ style size => some (.setFont ((d.curFont.map (·.2)).getD 0) style size)
  | .setTransparency _ => some (.setTransparency d.curTr)
  | .clearTransparency => some (.setTransparency none)
  | .setColourSpace _ => found.cs.map fun n => .setColourSpace (n - 1)
  | .text t => some (.text t)
  | .cell r t => some (.cell r t)
  /- the option's own list of dictionaries is empty: it is not exported (cell_option.go 32); only in the calls MultiCellWithOption makes
  the transparency is in it already (gopdf.go 1281-1283), any list that is not empty stands for that -/
  | .cellWithOption r t opt tr => some (.cellWithOption r t { opt with ext := if opt.ext = [] then [] else found.gs } (ownTr tr found))
  | .line x1 y1 x2 y2 => some (.line x1 y1 x2 y2)
  | .polygon pts st => some (.polygon pts st)
  | .rectLowerOpt x y w h st tr => some (.rectLowerOpt x y w h st (ownTr tr found))
  | .rectUpperOpt x y w h st tr => some (.rectUpperOpt x y w h st (ownTr tr found))
  /- gopdf.go 488-500: only the place and the size are given -/
  | .image _ i => found.xobj.map fun n => .image { i with withMask := false, maskAngle := 0, imageAngle := 0, verticalFlip := false, horizontalFlip := false, crop := none, index := n - 1, ext := found.gs }
  /- content_obj.go 382-407 -/
  | .imageOpt _ i _ mask => found.xobj.map fun n => .image { i with withMask := mask.isSome, maskAngle := (mask.map fun m => m.2.1.imageAngle).getD 0, index := n - 1, ext := found.gs }

structure St where
  doc : Doc.Doc
  content : Content.St
  /-- calls made so far, plus 1: the tag of the next call -/
  next : Nat

/-- What a call does: the document operation and its outcome, then - if that succeeded - the drawing.  `none`: a panic (or not a
call).  After an error nothing is drawn. -/
def step (e : Content.Env) (s : St) (c : Call) : Option St :=
  match docOp s.next c with
  | none => none
  | some none => ((contentCall s.doc { tag := 0 } c).bind (Content.step e s.content)).map fun t => { s with content := t, next := s.next + 1 }
  | some (some op) =>
    match Doc.step s.doc op with
    | (_, .panic) => none
    | (d, .err) => some { s with doc := d, next := s.next + 1 }
    | (d, .ok) =>
      match contentCall d (d.lastEntry.getD { tag := 0 }) c with
      | none => some { s with doc := d, next := s.next + 1 }
      | some k => (Content.step e s.content k).map fun t => { doc := d, content := t, next := s.next + 1 }

def steps (e : Content.Env) : St → List Call → Option St
  | s, [] => some s
  | s, c :: rest => (step e s c).bind fun s' => steps e s' rest

/-- `Start`: no page yet (gopdf.go 883-918). -/
def start (prot : Bool) (marginLeft marginTop : ℚ) : St :=
  { doc := Doc.start prot, content := Content.start 0 marginLeft marginTop, next := 1 }

/-! ### The two histories of a program -/

/-- The document operations of a program. -/
def docOps : Nat → List Call → List Doc.Op
  | _, [] => []
  | n, c :: rest => ((docOp n c).getD none).toList ++ docOps (n + 1) rest

def isPage : Call → Bool
  | .addPage _ => true
  | _ => false

/-- Number of pages added before the call with tag `n`. -/
def pagesBefore (prog : List Call) (n : Nat) : Nat := (prog.take (n - 1)).countP isPage

/-- The drawing calls of a program. -/
def drawCalls (e : Content.Env) : St → List Call → List Content.Call
  | _, [] => []
  | s, c :: rest =>
    (match docOp s.next c with
    | none => []
    | some none => (contentCall s.doc { tag := 0 } c).toList
    | some (some op) => match Doc.step s.doc op with
      | (d, .ok) => (contentCall d (d.lastEntry.getD { tag := 0 }) c).toList
      | _ => []) ++
    (match step e s c with
    | some s' => drawCalls e s' rest
    | none => [])

/-- The height of the page added last before the call with tag `n`. -/
def heightBefore (prog : List Call) (n : Nat) : ℚ :=
  ((prog.take (n - 1)).foldl (fun h c => match c with | .addPage ht => ht | _ => h) 0)

/-- What the transparency group of a mask draws: the mask's picture, with the mask's own options (gopdf.go 540-605 calls
`GetCacheContentImage`, content_obj.go 382-407, with them). -/
def maskItem (prog : List Call) (en : Doc.Entry) : List Content.Item :=
  match prog[en.mask - 1]? with
  | some (.imageOpt _ _ _ (some (_, m, _))) =>
    [.image { m with index := en.xobj.getD 0 - 1, ext := en.gs, pageHeight := heightBefore prog en.mask }]
  | _ => []

/-- The bytes of a content stream, given its entries: those of the page its first call was made on, and for the group of a mask
those of the mask's picture (transparency_xobject_group.go 55-63). -/
def render (e : Content.Env) (prog : List Call) (s : St) : List Doc.Entry → Bytes
  | [] => []
  | en :: _ =>
    if en.tag = 0 then (Content.writeItems e (maskItem prog en)).1
    else (Content.writeItems e (s.content.pages.getD (pagesBefore prog en.tag) [])).1

end Verif.Program
