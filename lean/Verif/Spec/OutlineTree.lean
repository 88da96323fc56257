import Verif.Model.OutlineTree
/- What a viewer needs of the links of a bookmark tree. -/
namespace Verif.OutlineTree

/-- The nodes of a list, without their children. -/
def Forest.top : Forest → List Nat
  | .nil => []
  | .cons id _ rest => id :: rest.top

/-- Every node of the tree with the list of its children. -/
def Forest.families : Forest → List (Nat × List Nat)
  | .nil => []
  | .cons id kids rest => (id, kids.top) :: (kids.families ++ rest.families)

/-- All nodes of the tree. -/
def Forest.ids (f : Forest) : List Nat := f.families.map (·.1)

/-- `l` is doubly linked in `h`: each element's neighbours are its neighbours in the list. -/
def NextOK (h : Heap) (l : List Nat) : Prop := ∀ (i a : Nat), l[i]? = some a → (h a).next = l[i + 1]?
def PrevOK (h : Heap) (l : List Nat) : Prop := ∀ (i a : Nat), l[i]? = some a → (h a).prev = if i = 0 then none else l[i - 1]?

/-- The children `l` of `p` are linked as a viewer expects. -/
structure Family (h : Heap) (p : Nat) (l : List Nat) : Prop where
  next : NextOK h l
  prev : PrevOK h l
  parent : ∀ a ∈ l, (h a).parent = p
  first : (h p).first = l.head?
  last : (h p).last = l.getLast?

end Verif.OutlineTree
