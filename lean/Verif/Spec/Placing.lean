import Verif.Model.Placing
import Verif.Spec.FileReader
import Verif.Spec.ObjectValue
/-
Specification: what the caller of a program asked for - pages with their sizes and links, anchors, bookmarks, measured in points
from the upper left corner of the page - and how a viewer finds it in a file (ISO 32000-1 §7.7.3.3 pages, §7.7.3.4 inheritance,
§12.3.2 destinations, §12.3.3 bookmarks, §12.5.2 annotations, §12.5.6.5 links, §12.6.4.7 URI actions, §14.11.2 page boxes).
-/
namespace Verif.Placing
open PdfObject FileReader
open ObjectValue (decimal)

/-- The points in a unit: 1 is the point, 2 the millimetre, 3 the centimetre, 4 the inch, 5 the pixel (1/96 inch). -/
def pointsIn (unit : Int) : ℚ :=
  if unit = 2 then 720 / 254 else if unit = 3 then 7200 / 254 else if unit = 4 then 72 else if unit = 5 then 72 / 96 else 1

/-- A length in points, given in a unit or with a factor of one's own. -/
def measure (c : Units.Cfg) (x : ℚ) : ℚ := x * if c.conv = 0 then pointsIn c.unit else c.conv

/-- The unit of a size or box: its own, or the document's. -/
def unitOf (own doc : Units.Cfg) : Units.Cfg := if own.unit = 0 then doc else own

/-- The default size of pages (width, height). -/
def paper (ce : Content.Env) (size : Units.Rect) : ℚ × ℚ :=
  let u := unitOf size.override ce.cfg
  (measure u size.w, measure u size.h)

/-- The size given with a page (a factor of one's own is not applied: C21). -/
def ownPaper (ce : Content.Env) (size : Units.Rect) : ℚ × ℚ := paper { ce with cfg := ⟨ce.cfg.unit, 0⟩ } size

/-- An area of a page, in points from the upper left corner. -/
structure Area where
  left : ℚ
  top : ℚ
  right : ℚ
  bottom : ℚ
  deriving DecidableEq, Repr

/-- A trim box; none if it is all zero. -/
def trimArea (ce : Content.Env) (b : TrimBox) : Option Area :=
  let u := unitOf b.override ⟨ce.cfg.unit, 0⟩
  let a : Area := ⟨measure u b.left, measure u b.top, measure u b.right, measure u b.bottom⟩
  if a = ⟨0, 0, 0, 0⟩ then none else some a

inductive Target where
  | url (u : Bytes)
  | anchor (name : Bytes)
  deriving DecidableEq, Repr

structure Link where
  target : Target
  area : Area
  deriving DecidableEq, Repr

structure Sheet where
  /-- own size, or the default size of the document -/
  size : Option (ℚ × ℚ)
  trim : Option Area
  links : List Link
  deriving DecidableEq, Repr

/-- `page`: the number of the page, 1 for the first, 0 for none; `top`: how far below its upper edge. -/
structure Place where
  page : Nat
  top : ℚ
  deriving DecidableEq, Repr

structure Bookmark where
  title : List Nat
  page : Nat
  /-- `none`: no position was asked for -/
  top : Option ℚ
  deriving DecidableEq, Repr

/-- What was asked for. -/
structure Plan where
  sheets : List Sheet := []
  anchors : Bytes → Option Place := fun _ => none
  marks : List Bookmark := []

/-- Put a link on the last page. -/
def Plan.link (p : Plan) (l : Link) : Plan :=
  { p with sheets := p.sheets.modify (p.sheets.length - 1) fun t => { t with links := t.links ++ [l] } }

/-- The area `(x, y)`, `w` wide and `h` high, in the document's units. -/
def area (ce : Content.Env) (x y w h : ℚ) : Area :=
  let pt := measure ce.cfg
  ⟨pt x, pt y, pt x + pt w, pt y + pt h⟩

/-- What a call asks for.  Anchors and bookmarks lie at the cursor: an anchor one line (the font size) above it, a bookmark 20 points
above it, so that the line can be seen. -/
def Plan.add (p : Plan) (ce : Content.Env) (s : Program.St) : Call → Plan
  | .other _ => p
  | .addPage size trim => { p with sheets := p.sheets ++ [⟨size.map (ownPaper ce), trim.bind (trimArea ce), []⟩] }
  | .externalLink url x y w h => p.link ⟨if url = [] then .anchor [] else .url url, area ce x y w h⟩
  | .internalLink name x y w h => p.link ⟨.anchor name, area ce x y w h⟩
  | .setAnchor name => { p with
      anchors := fun n => if n = name then some ⟨p.sheets.length, s.content.cur.y - s.content.cur.fontSize⟩ else p.anchors n }
  | .addOutline t => { p with marks := p.marks ++ [⟨t, p.sheets.length, none⟩] }
  | .addOutlineWithPosition t => { p with marks := p.marks ++ [⟨t, p.sheets.length, some (s.content.cur.y - 20)⟩] }

/-- What a program asks for. -/
def plan (ce : Content.Env) (size : Units.Rect) : Plan → Program.St → List Call → Plan
  | p, _, [] => p
  | p, s, c :: rest =>
    match Program.step ce s (toCall ce size s.next c) with
    | some s' => plan ce size (p.add ce s c) s' rest
    | none => p

/-! ### Reading the file -/

/-- A number rounded to `k` digits. -/
def rounded (k : Nat) (q : ℚ) : Val := .num (decimal k q)

/-- An area on a page of height `h`: the corners of a rectangle in PDF coordinates, from the lower edge of the page. -/
def onPaper (h : ℚ) (a : Area) : Val := .arr [rounded 2 a.left, rounded 2 (h - a.top), rounded 2 a.right, rounded 2 (h - a.bottom)]

/-- The object numbers of the pages (§7.7.3.2). -/
def pageRefs (file : Bytes) : Option (List Nat) :=
  (pageTree file).bind fun tree => match tree.get (lit "Kids") with
    | some (.arr l) => sequence (l.map refOf)
    | _ => none

/-- The annotations of a page. -/
def annots (page : Val) : Option (List Nat) := match page.get (lit "Annots") with
  | none => some []
  | some (.arr l) => sequence (l.map refOf)
  | _ => none

/-- `/MediaBox`, possibly inherited. -/
def mediaBox (file : Bytes) (page : Val) : Option Val := match page.get (lit "MediaBox") with
  | some b => some b
  | none => (follow file page "Parent" "Pages").bind fun r => r.1.get (lit "MediaBox")

/-- The reference to page `n`: the first page is page 1; there is no page 0. -/
def refTo (refs : List Nat) (n : Nat) : Nat := if n = 0 then 0 else refs.getD (n - 1) 0

/-- The size of page `n` (1 is the first page), in points. -/
def Plan.size (p : Plan) (ce : Content.Env) (size : Units.Rect) (n : Nat) : ℚ × ℚ :=
  match (p.sheets[n - 1]?).bind (·.size) with
  | some s => s
  | none => paper ce size

/-- Annotation `n` on page `k` is the link asked for, `height` giving the heights of the pages: a link annotation in its place, with
an action that opens the address, or a destination that is the place of the anchor.  (A link to an anchor that is never set leads
nowhere.) -/
def ShowsLink (c : Decoder) (file : Bytes) (refs : List Nat) (height : Nat → ℚ) (p : Plan) (k n : Nat) (l : Link) : Prop :=
  let start (v : Val) := v.get (lit "Type") = some (.name (lit "Annot")) ∧ v.get (lit "Subtype") = some (.name (lit "Link")) ∧
    v.get (lit "Rect") = some (onPaper (height k) l.area)
  match l.target with
  | .url u => ∃ v data action uri, object file n = some (v, data) ∧ start v ∧ v.get (lit "Dest") = none ∧ v.get (lit "A") = some action ∧
      action.get (lit "S") = some (.name (lit "URI")) ∧ action.get (lit "URI") = some (.str uri) ∧ c.decrypt n uri = u
  | .anchor name => ∀ a, p.anchors name = some a → ∃ v data, object file n = some (v, data) ∧ start v ∧ v.get (lit "A") = none ∧
      v.get (lit "Dest") = some (.arr [.ref (refTo refs a.page), .name (lit "XYZ"), .num 0, rounded 2 (height a.page - a.top), .null])

/-- A bookmark of the file is the one asked for, `height` giving the heights of the pages; without position it leads to the lower
edge of the page. -/
def ShowsMark (refs : List Nat) (height : Nat → ℚ) (v : Val) (b : Bookmark) : Prop :=
  v.get (lit "Title") = some (.str (ObjectValue.utf16 b.title)) ∧
  v.get (lit "Dest") = some (.arr [.ref (refTo refs b.page), .name (lit "XYZ"), .num 90,
    rounded 6 (match b.top with | some t => height b.page - t | none => 0), .num 0])

/-- Follow `/Next` from bookmark `n`, at most `fuel` bookmarks. -/
def siblings (file : Bytes) : Nat → Option Nat → Option (List Val)
  | _, none => some []
  | 0, some _ => none
  | fuel + 1, some n => (object file n).bind fun r =>
    (siblings file fuel ((r.1.get (lit "Next")).bind refOf)).map (r.1 :: ·)

/-- The top-level bookmarks, if the file has any: trailer, catalog, `/Outlines`, `/First`, `/Next`. -/
def bookmarks (file : Bytes) (fuel : Nat) : Option (List Val) :=
  (trailerDict file).bind fun t => (follow file t "Root" "Catalog").bind fun catalog =>
    match catalog.1.get (lit "Outlines") with
    | none => some []
    | some _ => (follow file catalog.1 "Outlines" "Outlines").bind fun root => siblings file fuel ((root.1.get (lit "First")).bind refOf)

end Verif.Placing
