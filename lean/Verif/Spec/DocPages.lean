import Verif.Spec.DocRefs
/-
Specification vocabulary for pages: what a reader of the compiled document finds on a page, and what the caller drew.
-/
namespace Verif.Doc

/-- Numbers of the page objects, ascending (the order of creation). -/
def Doc.pageNums (d : Doc) : List Nat :=
  ((List.range d.objs.length).map (· + 1)).filter (fun n => (d.objAt n).map Obj.kind = some .page)

/-- Numbers of the content stream objects, ascending. -/
def Doc.contentNums (d : Doc) : List Nat :=
  ((List.range d.objs.length).map (· + 1)).filter (fun n => (d.objAt n).map Obj.kind = some .contentStream)

/-- What the stream with number `n` draws: the tags of its entries, in order. -/
def Doc.streamText (d : Doc) (n : Nat) : List Nat :=
  match d.objAt n with
  | some (.content es) => es.map (·.tag)
  | _ => []

/-- What a reader draws for the page with object number `n`: its /Contents streams one after the other. -/
def Doc.pageText (d : Doc) (n : Nat) : List Nat :=
  match d.objAt n with
  | some (.page cs _ _) => cs.flatMap d.streamText
  | _ => []

/-- What is on each page: for every page, in order of creation, the streams created after it and before the next page. -/
def Doc.layout (d : Doc) : List (List Nat) :=
  d.pageNums.map (fun p =>
    (d.contentNums.filter (fun c => p < c ∧ ∀ q ∈ d.pageNums, ¬ (p < q ∧ q < c))).flatMap d.streamText)

/-- The page tree as a reader sees it: /Kids and /Count of object 2. -/
def Doc.pageTree (d : Doc) : Option (List Nat × Nat) :=
  match d.objAt 2 with
  | some (.pages kids c) => some (kids, c)
  | _ => none

/-- The tag of a call that draws something. -/
def Op.tag? : Op → Option Nat
  | .draw t _ => some t
  | .drawTr t _ => some t
  | .text t => some t
  | .cell t _ => some t
  | .image t _ => some t
  | .imageOpt t _ _ _ => some t
  | .setColorSpace t _ => some t
  | _ => none

/-- Append to the last list, if there is one. -/
def addToLast (t : Nat) : List (List Nat) → List (List Nat)
  | [] => []
  | [l] => [l ++ [t]]
  | l :: ls => l :: addToLast t ls

/-- What the caller drew on each page, from the calls and their outcomes alone: AddPage starts an empty page, a drawing
call that succeeded adds its tag to the page added last (before the first page it adds to none). -/
def drawn : List (List Nat) → List (Op × Outcome) → List (List Nat)
  | ps, [] => ps
  | ps, (.addPage, _) :: h => drawn (ps ++ [[]]) h
  | ps, (op, .ok) :: h => drawn (match op.tag? with | some t => addToLast t ps | none => ps) h
  | ps, (_, _) :: h => drawn ps h

/-- The ids GetNextObjectID announces before each AddPage of a history: the numbers of the pages, in call order. -/
def pageIds (d : Doc) : List Op → List Nat
  | [] => []
  | .addPage :: h => d.nextID :: pageIds (step d .addPage).1 h
  | op :: h => pageIds (step d op).1 h

end Verif.Doc
