/-
Model of OutlineNodes.Parse and OutlineNode.Parse (outlines_obj.go 168-218): the links of bookmark objects are fields of
objects on a heap, addressed by the object number GetIndex returns (outlines_obj.go 83, 120-122).
Simplification: titles, destinations and heights are left out (no call of this file changes them).
-/
namespace Verif.OutlineTree

/-- The link fields of a bookmark (outlines_obj.go 89-99): `none` is -1 for prev and next (144-149), 0 for first and last
(150-155). -/
structure Links where
  parent : Nat := 0
  prev : Option Nat := none
  next : Option Nat := none
  first : Option Nat := none
  last : Option Nat := none
deriving DecidableEq, Repr

/-- All bookmarks by object number. -/
abbrev Heap := Nat → Links

/-- A list of nodes with their children (outlines_obj.go 168-175), as first node, its children, the following nodes. -/
inductive Forest where
  | nil
  | cons (id : Nat) (kids rest : Forest)
deriving DecidableEq, Repr

/-- Assignment to a field of one object. -/
def Heap.upd (h : Heap) (i : Nat) (f : Links → Links) : Heap := fun j => if j = i then f (h j) else h j

/-- `SetFirst` etc. (outlines_obj.go 104-122). -/
def Heap.setFirst (h : Heap) (i : Nat) (v : Option Nat) : Heap := h.upd i (fun l => { l with first := v })
def Heap.setLast (h : Heap) (i : Nat) (v : Option Nat) : Heap := h.upd i (fun l => { l with last := v })
def Heap.setPrev (h : Heap) (i : Nat) (v : Option Nat) : Heap := h.upd i (fun l => { l with prev := v })
def Heap.setNext (h : Heap) (i : Nat) (v : Option Nat) : Heap := h.upd i (fun l => { l with next := v })
def Heap.setParent (h : Heap) (i : Nat) (v : Nat) : Heap := h.upd i (fun l => { l with parent := v })

/-- The number of the first node of a list. -/
def Forest.head : Forest → Option Nat
  | .nil => none
  | .cons id _ _ => some id

/-- The body of the loop of `OutlineNode.Parse` before the recursive call (outlines_obj.go 201-216): child `id` of `p`,
with `prev` = `obj.Children[i-1]` (none at i = 0) and `next` = `obj.Children[i+1]` (none at the end). -/
def linkKid (p : Nat) (prev next : Option Nat) (id : Nat) (h : Heap) : Heap :=
  let h := if prev.isNone then (h.setFirst p (some id)).setPrev id none else h
  let h := if next.isNone then (h.setLast p (some id)).setNext id none else h
  let h := if prev.isSome then h.setPrev id prev else h
  let h := if next.isSome then h.setNext id next else h
  h.setParent id p

/-- `OutlineNode.Parse` (outlines_obj.go 196-218): the loop over the children of `p`. For a node without children it does
nothing (201-203). -/
def parseKids (p : Nat) (prev : Option Nat) (h : Heap) : Forest → Heap
  | .nil => h
  | .cons id kids rest => parseKids p (some id) (parseKids id none (linkKid p prev rest.head id h) kids) rest

/-- The loop of `OutlineNodes.Parse` (outlines_obj.go 178-193): for i > 0 it calls SetNext where SetPrev was meant (183). -/
def parseTop (prev : Option Nat) (h : Heap) : Forest → Heap
  | .nil => h
  | .cons id kids rest =>
    let h := if prev.isNone then h.setPrev id none else h.setNext id prev
    let h := h.setNext id rest.head
    let h := parseKids id none h kids
    parseTop (some id) h rest

/-- The bookmarks as AddOutlineWithPosition leaves them (outlines_obj.go 69-82): linked in call order; `parent` is the
index 2 of the outlines object (gopdf.go 902-903). -/
def added (ids : List Nat) : Heap := fun i =>
  match ids.idxOf? i with
  | none => {}
  | some k => { parent := 2, prev := if k = 0 then none else ids[k - 1]?, next := ids[k + 1]? }

end Verif.OutlineTree
