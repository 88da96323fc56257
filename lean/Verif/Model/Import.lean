import Verif.Model.Program
/-
Importing pages of other files: gopdf.go 1520-1703.  The importer (gofpdi) is not part of this repository; a page of a source is what
the importer answers for it.

Simplifications:
* the importer's answers do not depend on other imports, except for the number it is told to go on with (SetNextObjectID); all
  answers are allowed here, what is needed of them is in Spec/Import.lean;
* Go's maps are lists with distinct keys, and the resources name the templates in the order they were imported (in Go the order
  is not determined);
* a source that cannot be read makes gofpdi panic.
-/
namespace Verif.Import

/-- GetImportedObjects (texts by object number) and PutFormXobjects (object numbers by name, the name with its slash). -/
structure Fetched where
  objs : List (Nat × Bytes)
  templates : List (Bytes × Nat)

/-- A page of a source. -/
structure Source where
  /-- `GetPageSizes()[pageno][box]`: "w" and "h" -/
  size : Option (ℚ × ℚ)
  /-- ImportPage, PutFormXobjects and GetImportedObjects after SetNextObjectID -/
  fetch : Nat → Fetched
  /-- UseTemplate: the name, and for x, y, w, h in points the two scales and the two offsets -/
  name : Bytes
  place : ℚ → ℚ → ℚ → ℚ → ℚ × ℚ × ℚ × ℚ

structure St where
  prog : Program.St
  /-- the text of imported objects, by index -/
  data : Nat → Bytes
  /-- `ImportedTemplateIds` (procset_obj.go 15) -/
  templates : List (Bytes × Nat)

/-- `objs[i]`: the empty text if there is none. -/
def value (objs : List (Nat × Bytes)) (i : Nat) : Bytes := ((objs.find? fun o => o.1 = i).map (·.2)).getD []

/-- The objects `ImportObjects` adds, in order (gopdf.go 1689-1695). -/
def newObjects (objs : List (Nat × Bytes)) (start : Nat) : List Bytes :=
  (List.range' start objs.length).filterMap fun i => if value objs i = [] then none else some (value objs i)

/-- An assignment to a map (gopdf.go 1698-1703). -/
def assign (t : List (Bytes × Nat)) (x : Bytes × Nat) : List (Bytes × Nat) := t.filter (fun y => y.1 ≠ x.1) ++ [x]

/-- The texts of objects appended at index `n`. -/
def put (data : Nat → Bytes) (n : Nat) (l : List Bytes) (i : Nat) : Bytes := if n ≤ i then (l[i - n]?).getD (data i) else data i

inductive Call where
  /-- ImportPage, ImportPageStream -/
  | importPage (p : Source)
  | useTemplate (p : Source) (x y w h : ℚ)
  | other (c : Program.Call)

/-- Calls that are not given by a constructor of their own. -/
def isOther : Program.Call → Bool
  | .object (.importObjects _) | .plain (.template _ _ _ _ _) => false
  | _ => true

/-- What a call adds and draws. -/
def St.prepare (e : Content.Env) (s : St) : Call → Option ((Nat → Bytes) × List (Bytes × Nat) × Program.Call)
  /- gopdf.go 1520-1548, 1552-1580; GetNextObjectID 1679-1681 -/
  | .importPage p =>
    let n := s.prog.doc.objs.length
    let f := p.fetch (n + 1)
    let l := newObjects f.objs (n + 1)
    some (put s.data n l, f.templates.foldl assign s.templates, .object (.importObjects l.length))
  /- gopdf.go 1602-1607 -/
  | .useTemplate p x y w h =>
    let (sx, sy, tx, ty) := p.place (Units.toPoints e.cfg x) (Units.toPoints e.cfg y) (Units.toPoints e.cfg w) (Units.toPoints e.cfg h)
    some (s.data, s.templates, .plain (.template sx sy tx ty p.name))
  | .other c => if isOther c then some (s.data, s.templates, c) else none

def step (e : Content.Env) (s : St) (c : Call) : Option (St × Program.Call) :=
  (s.prepare e c).bind fun r => (Program.step e s.prog r.2.2).map fun p => (⟨p, r.1, r.2.1⟩, r.2.2)

/-- The state after the calls, and the calls of Model/Program.lean they are. -/
def steps (e : Content.Env) : St → List Call → Option (St × List Program.Call)
  | s, [] => some (s, [])
  | s, c :: rest => (step e s c).bind fun p => (steps e p.1 rest).map fun q => (q.1, p.2 :: q.2)

def start (prot : Bool) (marginLeft marginTop : ℚ) : St := ⟨Program.start prot marginLeft marginTop, fun _ => [], []⟩

/-- The loop of `ImportPagesFromSource` (gopdf.go 1640-1673), with the calls it makes: pages of the document's size, of height
`height`; an error if the size of a page is not known. -/
def importPages (height : ℚ) : List Source → List Call × Bool
  | [] => ([], true)
  | p :: rest => match p.size with
    | none => ([], false)
    | some (w, h) => ([.other (.addPage height), .importPage p, .useTemplate p 0 0 w h] ++ (importPages height rest).1, (importPages height rest).2)

end Verif.Import
