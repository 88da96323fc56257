/-
Model of the document state machine: which objects exist, which references they write, and how every API call
changes them (gopdf.go `start` 884-922, `addObj` 2358-2362, `getContent` 2364-2376, `prepare` 2236-2285 and the calls
cited below).

Simplifications (all definitions of this file):
* strings that only serve as keys (image ids, font families, colour space and anchor names) are natural numbers;
* float parameters are dropped, except that a transparency keeps its alpha rounded to thousandths (`%.3f`), whether it
  is exactly 1, and its blend mode; the string keys `GetId` are the pairs they print;
* a drawing call appends one entry carrying the caller's tag and the resources it names; what is drawn is modelled in
  other files; the merging of consecutive texts (list_cache_content.go 21) is modelled there;
* header and footer functions run after the page was added (gopdf.go 840-848): a history is the sequence of calls with
  the calls made by these functions spliced in after the `addPage`;
* Go maps that are only looked up by key are association lists (first match);
* `Start` was called once on a fresh `GoPdf`, so the catalog, page tree, outlines and resource objects have the indices
  0, 1, 2, 3 (gopdf.go 900-910).
-/
namespace Verif.Doc

/-- A drawing entry of a content stream: the caller's tag and the resource names it uses:
`/F<font>`, `/I<xobj>`, `/GS<n>`, `/CS<n>` as printed (1-based). -/
structure Entry where
  tag : Nat
  font : Option Nat := none
  xobj : Option Nat := none
  gs : List Nat := []
  cs : Option Nat := none
  /-- in an entry of a mask's transparency group (its `tag` is 0; transparency_xobject_group.go): the tag of the call -/
  mask : Nat := 0
deriving DecidableEq, Repr

/-- Key of a graphics state (ext_g_state_obj.go 27-43): alpha/blend mode, or a soft mask index. -/
inductive GKey where
  | alpha (thousandths blend : Nat)
  | smask (index : Nat)
deriving DecidableEq, Repr

/-- `RelateFont` (procset_obj.go 101-109). -/
structure RelFont where
  family : Nat
  style : Nat
  count : Nat
  index : Nat
deriving DecidableEq, Repr

/-- `RelateColorSpace` (procset_obj.go 113-119). -/
structure RelCS where
  name : Nat
  count : Nat
  index : Nat
deriving DecidableEq, Repr

/-- What an image object knows about itself (image_obj.go 19-27, image_obj_parse.go 115-127): is it used as a mask,
does it have an alpha channel, does it have a palette; was it first drawn with a mask (`SplittedMask`, gopdf.go 664-666: then
its own transparency is not written). -/
structure ImgInfo where
  isMask : Bool
  alpha : Bool
  indexed : Bool
  split : Bool
deriving DecidableEq, Repr

/-- The objects a document can contain; indices are 0-based positions in `pdfObjs`, ids (as written) are index+1. -/
inductive Obj where
  /-- catalog_obj.go 9-11: outlines object id if set -/
  | catalog (outlines : Option Nat)
  /-- pages_obj.go 9-13: kids as object ids -/
  | pages (kids : List Nat) (count : Nat)
  /-- outlines_obj.go 9-17: ids of first and last item, and count -/
  | outlines (first last : Option Nat) (count : Nat)
  /-- procset_obj.go 9-17 -/
  | procset (fonts : List RelFont) (css : List RelCS) (xobjs : List Nat) (gss : List Nat)
  /-- page_obj.go 10-16: contents and annotation ids, resource object id -/
  | page (contents : List Nat) (links : List Nat) (resources : Nat)
  /-- content_obj.go 11-15 -/
  | content (entries : List Entry)
  /-- unicode_map.go -/
  | unicodeMap
  /-- pdf_dictionary_obj.go (the embedded font file) -/
  | fontFile
  /-- subfont_descriptor_obj.go: index of the font file -/
  | fontDesc (file : Nat)
  /-- cid_font_obj.go 10-13: index of the descriptor -/
  | cidFont (desc : Nat)
  /-- subset_font_obj.go 18-29 -/
  | font (family style count cid uni : Nat)
  /-- image_obj.go 19-27: cache id, flags, index of its soft mask / palette object once created (0 before, gopdf.go 703-720) -/
  | image (id : Nat) (info : ImgInfo) (smask rgb : Option Nat)
  /-- soft-mask image data of a PNG with alpha (smask_obj.go 17-25 with group index 0) -/
  | imageSMask
  /-- device_rgb_obj.go -/
  | deviceRGB
  /-- ext_g_state_obj.go 12-18: key and soft mask index -/
  | extGS (key : GKey)
  /-- smask_obj.go 38-52 with a group index -/
  | softMask (group : Nat)
  /-- transparency_xobject_group.go 8-17: what its stream draws -/
  | group (entries : List Entry)
  /-- annot_obj.go 9-12: `none` for a URI, otherwise the anchor name -/
  | annot (anchor : Option Nat)
  /-- color_space_obj.go: name and `CountOfSpaceColor` -/
  | colorSpace (name count : Nat)
  /-- outlines_obj.go 89-99: dest id and parent number (as written), ids of neighbours -/
  | outline (title dest parent : Nat) (prev next : Option Nat)
  /-- an object imported from another file (gopdf.go 1689-1695) -/
  | imported
  /-- encryption_obj.go -/
  | encryption
deriving DecidableEq, Repr

/-- `ImgCaches`, `curr` and the other fields of `GoPdf` the calls below use (gopdf.go 43-110, current.go 4-64). -/
structure Doc where
  objs : List Obj
  content : Option Nat := none
  curPage : Option Nat := none
  numPages : Nat := 0
  fontCount : Nat := 0
  csCount : Nat := 0
  imgs : List (Nat × Nat) := []
  trs : List ((Nat × Nat) × Nat) := []
  gss : List (GKey × Nat) := []
  masks : List (Nat × Nat) := []
  anchors : List (Nat × (Option Nat × Nat)) := []
  curFont : Option (Nat × Nat) := none
  curTr : Option Nat := none
  lastOutline : Option Nat := none
  prot : Bool := false
  encId : Nat := 0
deriving DecidableEq, Repr

/-- `start` (gopdf.go 883-918). -/
def start (prot : Bool) : Doc :=
  { objs := [.catalog none, .pages [] 0, .outlines none none 0, .procset [] [] [] []], prot := prot }

/-- `Transparency` (transparency.go 34-38): alpha in thousandths (as `%.3f` prints it), exactly 1?, blend mode. -/
structure Tr where
  alpha3 : Nat
  isOne : Bool
  blend : Nat
deriving DecidableEq, Repr

/-- An image to draw: cache id, and what parsing gives (`none`: not an image, otherwise has-alpha, indexed). -/
structure Img where
  id : Nat
  parsed : Option (Bool × Bool)
deriving DecidableEq, Repr

/-- API calls. `tag` identifies a drawing call. -/
inductive Op where
  | addPage
  /-- any drawing call without transparency; `needsPage`: it reads the page size (most shapes do, SetLineWidth etc. do not) -/
  | draw (tag : Nat) (needsPage : Bool)
  /-- Line, RectFromUpperLeftWithOpts, Polygon: with a per-call transparency or the current one -/
  | drawTr (tag : Nat) (tr : Option Tr)
  /-- Text, Cell -/
  | text (tag : Nat)
  /-- CellWithOption, MultiCellWithOption -/
  | cell (tag : Nat) (tr : Option Tr)
  | setTransparency (tr : Tr)
  | clearTransparency
  /-- AddTTFFont...: `ok` = the font file parses -/
  | addFont (family style : Nat) (ok : Bool)
  | setFont (family style : Nat)
  /-- Image, ImageByHolder -/
  | image (tag : Nat) (img : Img)
  /-- ImageByHolderWithOptions -/
  | imageOpt (tag : Nat) (img : Img) (tr : Option Tr) (mask : Option (Img × Option Tr))
  | addColorSpace (name : Nat)
  | setColorSpace (tag name : Nat)
  | externalLink
  | internalLink (anchor : Nat)
  | setAnchor (name y : Nat)
  | addOutline (title : Nat)
  | importObjects (n : Nat)
  | setPage (k : Nat)
  /-- GetBytesPdf, WritePdf, WriteTo, Write -/
  | compile
deriving DecidableEq, Repr

inductive Outcome where
  | ok
  | err
  | panic
deriving DecidableEq, Repr

/-- `addObj` (gopdf.go 2358-2362): append; the new index is the old length. -/
def Doc.add (d : Doc) (o : Obj) : Doc := { d with objs := d.objs ++ [o] }

/-- In-place update of the object at index `i` (objects are pointers in Go). -/
def Doc.upd (d : Doc) (i : Nat) (f : Obj → Obj) : Doc := { d with objs := d.objs.modify i f }

/-- `getContent` (gopdf.go 2364-2376): the current content stream, created on demand. -/
def Doc.getContent (d : Doc) : Doc × Nat :=
  match d.content with
  | some i => (d, i)
  | none => ({ d.add (.content []) with content := some d.objs.length }, d.objs.length)

def Obj.addEntry (e : Entry) : Obj → Obj
  | .content es => .content (es ++ [e])
  | o => o

/-- `listCache.append` on the current content stream (list_cache_content.go 17-19). -/
def Doc.append (d : Doc) (e : Entry) : Doc :=
  let (d, i) := d.getContent
  d.upd i (Obj.addEntry e)

/-- A drawing call that reads `curr.pageSize` (nil before the first page: nil dereference after `getContent`). -/
def Doc.appendPaged (d : Doc) (e : Entry) : Doc × Outcome :=
  if d.curPage.isNone then (d.getContent.1, .panic) else (d.append e, .ok)

/-- Updates of the resource object (`pdfObjs[indexOfProcSet]`). -/
def Obj.addFontRel (r : RelFont) : Obj → Obj
  | .procset fs cs xs gs => .procset (fs ++ [r]) cs xs gs
  | o => o
def Obj.addCSRel (r : RelCS) : Obj → Obj
  | .procset fs cs xs gs => .procset fs (cs ++ [r]) xs gs
  | o => o
def Obj.addXobj (i : Nat) : Obj → Obj
  | .procset fs cs xs gs => .procset fs cs (xs ++ [i]) gs
  | o => o
def Obj.addGS (i : Nat) : Obj → Obj
  | .procset fs cs xs gs => .procset fs cs xs (gs ++ [i])
  | o => o

/-- Updates of other objects. -/
def Obj.setSMask (j : Nat) : Obj → Obj
  | .image id m _ r => .image id m (some j) r
  | o => o
def Obj.setRGB (j : Nat) : Obj → Obj
  | .image id m s _ => .image id m s (some j)
  | o => o
def Obj.addLinkId (n : Nat) : Obj → Obj
  | .page c l r => .page c (l ++ [n]) r
  | o => o
def Obj.addOutlineId (n : Nat) : Obj → Obj
  | .outlines f _ c => .outlines (some (f.getD n)) (some n) (c + 1)
  | o => o
def Obj.setNext (n : Nat) : Obj → Obj
  | .outline t d p pr _ => .outline t d p pr (some n)
  | o => o
def Obj.addKid (n : Nat) : Obj → Obj
  | .pages k c => .pages (k ++ [n]) (c + 1)
  | o => o
def Obj.addContentId (n : Nat) : Obj → Obj
  | .page c l r => .page (c ++ [n]) l r
  | o => o
def Obj.useOutlines : Obj → Obj
  | .catalog _ => .catalog (some 3)
  | o => o

/-- `indexOfProcSet` (gopdf.go 910). -/
def procIdx : Nat := 3

/-- `indexOfOutlinesObj` (gopdf.go 902). -/
def outlinesIdx : Nat := 2

def Doc.relFonts (d : Doc) : List RelFont :=
  match d.objs[procIdx]? with
  | some (.procset fs _ _ _) => fs
  | _ => []
def Doc.relCSs (d : Doc) : List RelCS :=
  match d.objs[procIdx]? with
  | some (.procset _ cs _ _) => cs
  | _ => []
def Doc.relXobjs (d : Doc) : List Nat :=
  match d.objs[procIdx]? with
  | some (.procset _ _ xs _) => xs
  | _ => []
def Doc.relGSs (d : Doc) : List Nat :=
  match d.objs[procIdx]? with
  | some (.procset _ _ _ gs) => gs
  | _ => []

/-- First match of an association list. -/
def assoc {α β : Type} [DecidableEq α] (l : List (α × β)) (k : α) : Option β := (l.find? (fun p => p.1 = k)).map (·.2)

/-- `GetCachedExtGState` (ext_g_state_obj.go 45-71). Returns the index. -/
def Doc.extGState (d : Doc) (k : GKey) : Doc × Nat :=
  match assoc d.gss k with
  | some i => (d, i)
  | none =>
    let i := d.objs.length
    let d := (d.add (.extGS k)).upd procIdx (Obj.addGS i)
    ({ d with gss := d.gss ++ [(k, i)] }, i)

/-- `saveTransparency` (gopdf.go 2431-2456): the number printed in `/GS%d`, or nothing for an opaque setting. -/
def Doc.saveTransparency (d : Doc) (t : Tr) : Doc × Option Nat :=
  match assoc d.trs (t.alpha3, t.blend) with
  | some n => (d, some n)
  | none =>
    if t.isOne then (d, none)
    else
      let (d, i) := d.extGState (.alpha t.alpha3 t.blend)
      ({ d with trs := d.trs ++ [((t.alpha3, t.blend), i + 1)] }, some (i + 1))

/-- `getCachedTransparency` (gopdf.go 2416-2429). -/
def Doc.cachedTransparency (d : Doc) (t : Option Tr) : Doc × Option Nat :=
  match t with
  | none => (d, d.curTr)
  | some t => d.saveTransparency t

/-- Registering a new image: resource entry and cache (gopdf.go 690-700, 576-585). -/
def Doc.cacheImage (d : Doc) (id i : Nat) : Doc :=
  { d.upd procIdx (Obj.addXobj i) with imgs := d.imgs ++ [(id, i)] }

/-- `createSMask` and its object (gopdf.go 703-709). -/
def Doc.addSMaskImage (d : Doc) (i : Nat) : Doc := (d.add .imageSMask).upd i (Obj.setSMask d.objs.length)

/-- `createDeviceRGB` and its object (gopdf.go 711-720). -/
def Doc.addPalette (d : Doc) (i : Nat) : Doc := (d.add .deviceRGB).upd i (Obj.setRGB d.objs.length)

/-- Registering an image and the objects it needs (gopdf.go 690-720). -/
def Doc.register (d : Doc) (id i : Nat) (hasAlpha indexed : Bool) : Doc :=
  let d := d.cacheImage id i
  let d := if hasAlpha then d.addSMaskImage i else d
  if indexed then d.addPalette i else d

/-- `imageByHolder` (gopdf.go 650-730). The page size is read when appending, after the object was added. -/
def Doc.imageByHolder (d : Doc) (tag : Nat) (img : Img) (gs : List Nat) (split : Bool) : Doc × Outcome :=
  match assoc d.imgs img.id with
  | some i => d.appendPaged { tag := tag, xobj := some (i + 1), gs := gs }
  | none =>
    match img.parsed with
    | none => (d, .err)
    | some (hasAlpha, indexed) =>
      let i := d.objs.length
      let d := d.add (.image img.id ⟨false, hasAlpha, indexed, split⟩ none none)
      match d.appendPaged { tag := tag, xobj := some (i + 1), gs := gs } with
      | (d, .ok) => (d.register img.id i hasAlpha indexed, .ok)
      | (d, o) => (d, o)

/-- `GetCachedMask` (smask_obj.go 38-52). -/
def Doc.softMask (d : Doc) (group : Nat) : Doc × Nat :=
  match assoc d.masks group with
  | some i => (d, i)
  | none =>
    let i := d.objs.length
    let d := d.add (.softMask group)
    ({ d with masks := d.masks ++ [(group, i)] }, i)

/-- `createTransparencyXObjectGroup` (gopdf.go 607-648) with `GetCachedTransparencyXObjectGroup`
(transparency_xobject_group.go 26-39). Returns the number printed in `/GS%d`. -/
def Doc.maskGroup (d : Doc) (tag xobj : Nat) (gs : List Nat) : Doc × Nat :=
  let g := d.objs.length
  let d := d.add (.group [{ tag := 0, xobj := some (xobj + 1), gs := gs, mask := tag }])
  let (d, m) := d.softMask g
  let (d, e) := d.extGState (.smask m)
  (d, e + 1)

/-- `maskHolder` (gopdf.go 540-605): the page size is read after `getContent`. -/
def Doc.maskHolder (d : Doc) (tag : Nat) (img : Img) (gs : List Nat) : Doc × Option Nat × Outcome :=
  match assoc d.imgs img.id with
  | some i =>
    if d.curPage.isNone then (d.getContent.1, none, .panic)
    else
      let (d, n) := d.getContent.1.maskGroup tag i gs
      (d, some n, .ok)
  | none =>
    match img.parsed with
    | none => (d, none, .err)
    | some (hasAlpha, indexed) =>
      let i := d.objs.length
      let d := d.add (.image img.id ⟨true, hasAlpha, indexed, false⟩ none none)
      if d.curPage.isNone then (d.getContent.1, none, .panic)
      else
        let (d, n) := (d.getContent.1.register img.id i false false).maskGroup tag i gs
        (d, some n, .ok)

/-- `ImageByHolderWithOptions` (gopdf.go 502-538). -/
def Doc.imageWithOptions (d : Doc) (tag : Nat) (img : Img) (tr : Option Tr) (mask : Option (Img × Option Tr)) :
    Doc × Outcome :=
  let (d, g1) := d.cachedTransparency tr
  match mask with
  | none => d.imageByHolder tag img g1.toList false
  | some (m, mtr) =>
    let (d, g2) := d.cachedTransparency mtr
    match d.maskHolder tag m g2.toList with
    | (d, some g3, .ok) => d.imageByHolder tag img (g1.toList ++ [g3]) true
    | (d, _, o) => (d, o)

/-- The bit `Underline` of a font style (style.go: Regular 0, Italic 1, Bold 2, Underline 4) cleared: `style &^ Underline`. -/
def noUnderline (style : Nat) : Nat := if style / 4 % 2 = 1 then style - 4 else style

/-- `setSubsetFontObject` (gopdf.go 1779-1825). -/
def Doc.addFont (d : Doc) (family style : Nat) : Doc :=
  let uni := d.objs.length
  let file := uni + 1
  let desc := uni + 2
  let cid := uni + 3
  let idx := uni + 4
  let isNew := !d.relFonts.any (fun r => r.family = family ∧ r.style = noUnderline style)
  let cnt := if isNew then d.fontCount else 0
  let d := ((((d.add .unicodeMap).add .fontFile).add (.fontDesc file)).add (.cidFont desc)).add
    (.font family style cnt cid uni)
  if isNew then
    { d.upd procIdx (Obj.addFontRel { family := family, style := noUnderline style, count := cnt, index := idx }) with
      fontCount := cnt + 1 }
  else d

/-- First index `≥ i` whose object satisfies `p` (the scan loops of `SetFontWithStyle`, `SetColorSpace`). -/
def findFrom (p : Obj → Bool) : Nat → List Obj → Option (Nat × Obj)
  | _, [] => none
  | i, o :: os => if p o then some (i, o) else findFrom p (i + 1) os

def isFont (family style : Nat) : Obj → Bool
  | .font f s _ _ _ => f = family ∧ s = noUnderline style
  | _ => false

def isCS (name : Nat) : Obj → Bool
  | .colorSpace n _ => n = name
  | _ => false

/-- `SetFontWithStyle` (gopdf.go 955-986). -/
def Doc.setFont (d : Doc) (family style : Nat) : Doc × Outcome :=
  match findFrom (isFont family style) 0 d.objs with
  | some (i, .font _ _ c _ _) => ({ d with curFont := some (i, c) }, .ok)
  | _ => (d, .err)

/-- `SetColorSpace` (gopdf.go 2497-2522); appending needs no page. -/
def Doc.setColorSpace (d : Doc) (tag name : Nat) : Doc × Outcome :=
  match findFrom (isCS name) 0 d.objs with
  | some (_, .colorSpace _ c) => (d.append { tag := tag, cs := some (c + 1) }, .ok)
  | _ => (d, .err)

/-- `addColorSpace` (gopdf.go 2542-2560). -/
def Doc.addColorSpace (d : Doc) (name : Nat) : Doc × Outcome :=
  let i := d.objs.length
  if d.relCSs.any (fun r => r.name = name) then (d.add (.colorSpace name 0), .err)
  else
    let c := d.csCount
    let d := (d.add (.colorSpace name c)).upd procIdx (Obj.addCSRel { name := name, count := c, index := i })
    ({ d with csCount := c + 1 }, .ok)

/-- `addLink` (gopdf.go 1721-1727): the current page must be a page object (type assertion). -/
def Doc.addLink (d : Doc) (anchor : Option Nat) : Doc × Outcome :=
  match d.curPage with
  | none => (d, .panic)
  | some p =>
    let i := d.objs.length
    ((d.add (.annot anchor)).upd p (Obj.addLinkId (i + 1)), .ok)

/-- Id of the current page as `IndexOfPageObj+1` (0 before the first page). -/
def Doc.curPageId (d : Doc) : Nat :=
  match d.curPage with
  | none => 0
  | some p => p + 1

/-- `AddOutline` (gopdf.go 851-853, outlines_obj.go 55-66). `o.index` is the 0-based index 2 of the outlines object. -/
def Doc.addOutline (d : Doc) (title : Nat) : Doc :=
  let i := d.objs.length
  let prev := d.lastOutline.map (· + 1)
  let dest := d.curPageId
  let d1 := (d.add (.outline title dest 2 prev none)).upd outlinesIdx (Obj.addOutlineId (i + 1))
  let d3 := match d.lastOutline with
    | none => d1
    | some j => d1.upd j (Obj.setNext (i + 1))
  { d3 with lastOutline := some i }

/-- `SetPage` (gopdf.go 2481-2495): select the `k`-th content stream. -/
def findContent (k : Nat) : Nat → Nat → List Obj → Option Nat
  | _, _, [] => none
  | i, n, .content _ :: os => if n + 1 = k then some i else findContent k (i + 1) (n + 1) os
  | i, n, _ :: os => findContent k (i + 1) n os

def Doc.setPage (d : Doc) (k : Nat) : Doc × Outcome :=
  match findContent k 0 0 d.objs with
  | some i => ({ d with content := some i }, .ok)
  | none => (d, .err)

/-- One iteration of the loop of `prepare` (gopdf.go 2254-2283); the state is the objects, the page being filled
(`indexCurrPage`) and `encryptionObjID`. -/
def prepStep (st : List Obj × Option Nat × Nat) (i : Nat) : List Obj × Option Nat × Nat :=
  match st.1[i]? with
  | some (.page _ _ _) =>
    (st.1.modify 1 (Obj.addKid (i + 1)), some i, st.2.2)
  | some (.content _) =>
    match st.2.1 with
    | some p => (st.1.modify p (Obj.addContentId (i + 1)), st.2.1, st.2.2)
    | none => st
  | some .encryption => (st.1, st.2.1, i + 1)
  | _ => st

/-- `prepare`, outlines part (gopdf.go 2243-2246). -/
def Doc.markOutlines (d : Doc) : Doc :=
  match d.objs[outlinesIdx]? with
  | some (.outlines _ _ c) => if 0 < c then d.upd 0 Obj.useOutlines else d
  | _ => d

/-- `prepare` before its loop (gopdf.go 2238-2246): encryption dictionary, outlines reference of the catalog. -/
def Doc.prep0 (d : Doc) : Doc := (if d.prot then d.add .encryption else d).markOutlines

/-- `prepare` (gopdf.go 2236-2285). -/
def Doc.prepare (d : Doc) : Doc :=
  let d := d.prep0
  let r := (List.range d.objs.length).foldl prepStep (d.objs, none, d.encId)
  { d with objs := r.1, encId := r.2.2 }

/-- `AddPageWithOption` (gopdf.go 806-849); the resources reference is `indexOfProcSet+1`. -/
def Doc.addPage (d : Doc) : Doc :=
  let i := d.objs.length
  { d.add (.page [] [] (procIdx + 1)) with curPage := some i, numPages := d.numPages + 1, content := none }

/-- One API call. -/
def step (d : Doc) : Op → Doc × Outcome
  | .addPage => (d.addPage, .ok)
  | .draw tag needsPage => if needsPage then d.appendPaged { tag := tag } else (d.append { tag := tag }, .ok)
  | .drawTr tag tr =>
    let (d, g) := d.cachedTransparency tr
    d.appendPaged { tag := tag, gs := g.toList }
  | .text tag =>
    match d.curFont with
    | none => (d, .panic)
    | some (_, c) => d.appendPaged { tag := tag, font := some (c + 1) }
  | .cell tag tr =>
    let (d, g) := d.cachedTransparency tr
    match d.curFont with
    | none => (d, .panic)
    | some (_, c) => d.appendPaged { tag := tag, font := some (c + 1), gs := g.toList }
  | .setTransparency t =>
    let (d, g) := d.saveTransparency t
    ({ d with curTr := g }, .ok)
  | .clearTransparency => ({ d with curTr := none }, .ok)
  | .addFont f s ok => if ok then (d.addFont f s, .ok) else (d, .err)
  | .setFont f s => d.setFont f s
  | .image tag img => d.imageByHolder tag img [] false
  | .imageOpt tag img tr mask => d.imageWithOptions tag img tr mask
  | .addColorSpace n => d.addColorSpace n
  | .setColorSpace tag n => d.setColorSpace tag n
  | .externalLink => d.addLink none
  | .internalLink a => d.addLink (some a)
  | .setAnchor n y => ({ d with anchors := (n, (d.curPage, y)) :: d.anchors }, .ok)
  | .addOutline t => (d.addOutline t, .ok)
  | .importObjects n => ({ d with objs := d.objs ++ List.replicate n .imported }, .ok)
  | .setPage k => d.setPage k
  | .compile => (d.prepare, .ok)

/-- A history of calls. -/
def exec (d : Doc) : List Op → Doc
  | [] => d
  | op :: ops => exec (step d op).1 ops

/-- The outcomes along a history. -/
def outcomes (d : Doc) : List Op → List Outcome
  | [] => []
  | op :: ops => (step d op).2 :: outcomes (step d op).1 ops

/-- A document reached by some history of calls. -/
def Reachable (d : Doc) : Prop := ∃ prot h, d = exec (start prot) h

end Verif.Doc
