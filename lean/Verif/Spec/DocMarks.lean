import Verif.Spec.DocPages
/-
Specification vocabulary for bookmarks and links: how a viewer reads the bookmark list, and what the caller asked for.
-/
namespace Verif.Doc

/-- The outline root (object 3) as a reader sees it: /First, /Last, /Count. -/
def Doc.outlineRoot (d : Doc) : Option (Option Nat × Option Nat × Nat) :=
  match d.objAt 3 with
  | some (.outlines f l c) => some (f, l, c)
  | _ => none

/-- What a viewer shows: follow /Next from a bookmark; (title, destination) of each, at most `fuel` many. -/
def Doc.followNext (d : Doc) : Nat → Option Nat → List (Nat × Nat)
  | 0, _ => []
  | _, none => []
  | fuel + 1, some n =>
    match d.objAt n with
    | some (.outline t de _ _ ne) => (t, de) :: d.followNext fuel ne
    | _ => []

/-- The same backwards, along /Prev. -/
def Doc.followPrev (d : Doc) : Nat → Option Nat → List (Nat × Nat)
  | 0, _ => []
  | _, none => []
  | fuel + 1, some n =>
    match d.objAt n with
    | some (.outline t de _ pr _) => (t, de) :: d.followPrev fuel pr
    | _ => []

/-- The bookmarks a history asks for: title and the number of the page added last (0 if there is none), in call order.
`last` is the page added last before the history. -/
def askedMarks (d : Doc) (last : Nat) : List Op → List (Nat × Nat)
  | [] => []
  | .addPage :: h => askedMarks (step d .addPage).1 d.nextID h
  | .addOutline t :: h => (t, last) :: askedMarks (step d (.addOutline t)).1 last h
  | op :: h => askedMarks (step d op).1 last h

/-- The links a history asks for on each page: for every page, in order of AddPage, the links added while it was the
last page (`none` for a URI, otherwise the anchor name). -/
def askedLinks : List (List (Option Nat)) → List Op → List (List (Option Nat))
  | ps, [] => ps
  | ps, .addPage :: h => askedLinks (ps ++ [[]]) h
  | ps, .externalLink :: h => askedLinks (ps.modify (ps.length - 1) (· ++ [none])) h
  | ps, .internalLink a :: h => askedLinks (ps.modify (ps.length - 1) (· ++ [some a])) h
  | ps, _ :: h => askedLinks ps h

/-- The annotations of the page with object number `n`, as a reader finds them. -/
def Doc.pageLinks (d : Doc) (n : Nat) : List (Option (Option Nat)) :=
  match d.objAt n with
  | some (.page _ ls _) => ls.map (fun a => match d.objAt a with | some (.annot x) => some x | _ => none)
  | _ => []

/-- The anchor a history leaves under a name: the page added last and the height of the last SetAnchor with that name. -/
def askedAnchor (d : Doc) (last : Nat) (name : Nat) (found : Option (Nat × Nat)) : List Op → Option (Nat × Nat)
  | [] => found
  | .addPage :: h => askedAnchor (step d .addPage).1 d.nextID name found h
  | .setAnchor a y :: h => askedAnchor (step d (.setAnchor a y)).1 last name (if a = name then some (last, y) else found) h
  | op :: h => askedAnchor (step d op).1 last name found h

end Verif.Doc

namespace Verif.Doc

/-- What an internal link to `name` prints as destination: page object number and height (annot_obj.go 47-56); nothing if
the anchor does not exist. -/
def Doc.linkDest (d : Doc) (name : Nat) : Option (Nat × Nat) :=
  (assoc d.anchors name).map (fun x => ((match x.1 with | none => 0 | some i => i + 1), x.2))

end Verif.Doc

namespace Verif.Doc

/-- The embedded images: (id, object number), in order of creation. -/
def Doc.imageObjs (d : Doc) : List (Nat × Nat) :=
  (List.range d.objs.length).filterMap (fun i => match d.objAt (i + 1) with
    | some (.image id _ _ _) => some (id, i + 1)
    | _ => none)

/-- The last entry of the stream being drawn to. -/
def Doc.lastEntry (d : Doc) : Option Entry :=
  match d.content with
  | none => none
  | some i =>
    match d.objs[i]? with
    | some (.content es) => es.getLast?
    | _ => none

end Verif.Doc
