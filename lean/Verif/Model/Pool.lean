import Verif.Model.Objects
/-
Several documents written at the same time: the pool of buffers all documents of a process share (buffer_pool.go) and the four kinds of
objects that use it.  A goroutine that writes a document is a `Task`; the steps of all goroutines are interleaved in any way.  Each
use of the pool, of a buffer or of the goroutine's own writer is one step (sync.Pool is safe for concurrent use; what the writer does is not
modelled).  `WriteTo` of bytes.Buffer is a look at the buffer, a write and a reset.
-/
namespace Verif.Pool
open Objects Protect

/-- What a goroutine has still to do, and its result at the end. -/
inductive Task (α : Type) where
  | done (a : α)
  /-- write to the goroutine's own writer (gopdf.go 1079-1083, which counts) -/
  | say (b : Bytes) (k : Task α)
  /-- the number of bytes written so far (gopdf.go 1057, 1064) -/
  | offset (k : Nat → Task α)
  /-- take a buffer from the pool (buffer_pool.go 17-19) -/
  | get (k : Task α)
  /-- write to the buffer -/
  | fill (b : Bytes) (k : Task α)
  /-- read the buffer -/
  | look (k : Bytes → Task α)
  /-- empty the buffer -/
  | reset (k : Task α)
  /-- give the buffer back (buffer_pool.go 24) -/
  | put (k : Task α)

/-- One after the other. -/
def Task.andThen {α β : Type} : Task α → (α → Task β) → Task β
  | .done a, f => f a
  | .say b k, f => .say b (k.andThen f)
  | .offset k, f => .offset fun n => (k n).andThen f
  | .get k, f => .get (k.andThen f)
  | .fill b k, f => .fill b (k.andThen f)
  | .look k, f => .look fun b => (k b).andThen f
  | .reset k, f => .reset (k.andThen f)
  | .put k, f => .put (k.andThen f)

/-- buffer_pool.go 22-25 `PutBuffer`. -/
def putBuffer {α : Type} (k : Task α) : Task α := .reset (.put k)

/-- Writes to the buffer, one after the other. -/
def fills {α : Type} (l : List Bytes) (k : Task α) : Task α := l.foldr .fill k

/-- Writes to the writer, one after the other. -/
def writes {α : Type} (l : List Bytes) (k : Task α) : Task α := l.foldr .say k

/-- content_obj.go 25-95 `ContentObj.write`: `pieces` are the writes zlib or the page's content makes to the buffer. -/
def content (md5 : Bytes → Bytes) (prot : Option Bytes) (objID : Nat) (flate : Bool) (pieces : List Bytes) : Task Unit :=
  .get <| fills pieces <| .say (lit "<<\n") <| writes (if flate then [lit "/Filter/FlateDecode"] else []) <| .look fun b =>
    .say (lit "/Length " ++ dec b.length ++ lit "\n") <| .say (lit ">>\n") <| .say (lit "stream\n") <|
    match prot with
    | some key => .look fun b => match rc4Cip (objectkey md5 key objID) b with
      | none => putBuffer (.done ())
      | some c => .say c <| .say (lit "\n") <| .say (lit "endstream\n") <| putBuffer (.done ())
    | none => .look fun b => .say b <| .reset <| writes (if flate then [lit "\n"] else []) <| .say (lit "endstream\n") <| putBuffer (.done ())

/-- unicode_map.go 65-99 `UnicodeMap.write`. -/
def unicodeMap (md5 : Bytes → Bytes) (prot : Option Bytes) (objID : Nat) (pieces : List Bytes) : Task Unit :=
  .get <| fills pieces <| .say (lit "<<\n") <| .look fun b => .say (lit "/Length " ++ dec b.length ++ lit "\n") <| .say (lit ">>\n") <|
    .say (lit "stream\n") <|
    match prot with
    | some key => .look fun b => match rc4Cip (objectkey md5 key objID) b with
      | none => putBuffer (.done ())
      | some c => .say c <| .say (lit "endstream\n") <| putBuffer (.done ())
    | none => .look fun b => .say b <| .reset <| .say (lit "endstream\n") <| putBuffer (.done ())

/-- pdf_dictionary_obj.go 52-80 `PdfDictionaryObj.write`. -/
def fontFile (md5 : Bytes → Bytes) (prot : Option Bytes) (objID : Nat) (pieces : List Bytes) (plainLen : Nat) : Task Unit :=
  .get <| fills pieces <| .look fun b => .say (lit "<</Length " ++ dec b.length ++ lit "\n") <| .say (lit "/Filter /FlateDecode\n") <|
    .say (lit "/Length1 " ++ dec plainLen ++ lit "\n") <| .say (lit ">>\n") <| .say (lit "stream\n") <|
    match prot with
    | some key => .look fun b => match rc4Cip (objectkey md5 key objID) b with
      | none => putBuffer (.done ())
      | some c => .say c <| .say (lit "\nendstream\n") <| putBuffer (.done ())
    | none => .look fun b => .say b <| .say (lit "\nendstream\n") <| putBuffer (.done ())

/-- transparency_xobject_group.go 57-92 `TransparencyXObjectGroup.write`. -/
def group (props : Bytes) (pieces : List Bytes) : Task Unit :=
  .get <| fills pieces <| .look fun b => .say (props ++ lit "\t/Length " ++ dec b.length ++ lit "\n>>\nstream\n") <| .look fun b => .say b <|
    .say (lit "endstream\n") <| putBuffer (.done ())

/-- The write method of the object at index `i`; `cut` are the pieces in which something is written to a buffer.  The other objects
do not use the pool: what they write (`objBytes`) is one write here. -/
def objTask (cut : Bytes → List Bytes) (e : Env) (d : Doc.Doc) (i : Nat) : Doc.Obj → Task Unit
  | .content es => content e.md5 e.key (i + 1) e.deflate.isSome (cut (contentData e es))
  | .unicodeMap => unicodeMap e.md5 e.key (i + 1) (cut (e.cmap (i + 4)))
  | .fontFile => fontFile e.md5 e.key (i + 1) (cut (e.fontFile (i + 3)).1) (e.fontFile (i + 3)).2
  | .group es => group (groupProps (e.bbox i)) (cut (e.render es))
  | o => .say ((objBytes e d i o).getD []) (.done ())

/-- gopdf.go 1055-1063: the loop over the objects; gives the places where they begin. -/
def objsTask (i : Nat) : List (Task Unit) → Task (List Nat)
  | [] => .done []
  | t :: ts => .offset fun off => .say (dec (i + 1) ++ lit " 0 obj\n") <| t.andThen fun _ => .say (lit "endobj\n\n") <|
    (objsTask (i + 1) ts).andThen fun l => .done (off :: l)

/-- gopdf.go 1043-1066 `compilePdf`, after `prepare`. -/
def compileTask (cut : Bytes → List Bytes) (e : Env) (d : Doc.Doc) : Task Unit :=
  .say Compile.header <| (objsTask 0 (d.objs.mapIdx (objTask cut e d))).andThen fun linelens => .offset fun off =>
    writes (Compile.xrefChunks (trailerOf e d) off linelens d.objs.length) (.done ())

/-- A goroutine: what it has to do, the buffer it took, what its writer got. -/
structure Thread where
  task : Task Unit
  held : Option Nat := none
  out : Bytes := []

/-- The buffers of the process, those of them in the pool (buffer_pool.go 9-14), and the goroutines. -/
structure State where
  next : Nat
  heap : Nat → Bytes
  pool : List Nat
  threads : Nat → Thread

def State.set (s : State) (t : Nat) (th : Thread) : State := { s with threads := fun u => if u = t then th else s.threads u }
def State.write (s : State) (i : Nat) (b : Bytes) : State := { s with heap := fun j => if j = i then b else s.heap j }

/-- One step of one goroutine.  The pool gives any of its buffers or a new one (buffer_pool.go 11-13, 18), and may lose buffers at any time
(the documentation of sync.Pool). -/
inductive Step : State → State → Prop
  | say {s : State} {t : Nat} {b : Bytes} {k : Task Unit} (h : (s.threads t).task = .say b k) :
      Step s (s.set t { s.threads t with task := k, out := (s.threads t).out ++ b })
  | offset {s : State} {t : Nat} {k : Nat → Task Unit} (h : (s.threads t).task = .offset k) :
      Step s (s.set t { s.threads t with task := k (s.threads t).out.length })
  | getOld {s : State} {t i : Nat} {k : Task Unit} (h : (s.threads t).task = .get k) (hh : (s.threads t).held = none) (hi : i ∈ s.pool) :
      Step s { s.set t { s.threads t with task := k, held := some i } with pool := s.pool.erase i }
  | getNew {s : State} {t : Nat} {k : Task Unit} (h : (s.threads t).task = .get k) (hh : (s.threads t).held = none) :
      Step s { (s.write s.next []).set t { s.threads t with task := k, held := some s.next } with next := s.next + 1 }
  | fill {s : State} {t i : Nat} {b : Bytes} {k : Task Unit} (h : (s.threads t).task = .fill b k) (hh : (s.threads t).held = some i) :
      Step s ((s.write i (s.heap i ++ b)).set t { s.threads t with task := k })
  | look {s : State} {t i : Nat} {k : Bytes → Task Unit} (h : (s.threads t).task = .look k) (hh : (s.threads t).held = some i) :
      Step s (s.set t { s.threads t with task := k (s.heap i) })
  | reset {s : State} {t i : Nat} {k : Task Unit} (h : (s.threads t).task = .reset k) (hh : (s.threads t).held = some i) :
      Step s ((s.write i []).set t { s.threads t with task := k })
  | put {s : State} {t i : Nat} {k : Task Unit} (h : (s.threads t).task = .put k) (hh : (s.threads t).held = some i) :
      Step s { s.set t { s.threads t with task := k, held := none } with pool := i :: s.pool }
  | lose {s : State} {i : Nat} (hi : i ∈ s.pool) : Step s { s with pool := s.pool.erase i }

/-- A process that begins: no buffers, every goroutine with its task. -/
def initial (tasks : Nat → Task Unit) : State := { next := 0, heap := fun _ => [], pool := [], threads := fun t => { task := tasks t } }

/-- Some steps. -/
inductive Steps : State → State → Prop
  | refl (s : State) : Steps s s
  | tail {a b c : State} : Steps a b → Step b c → Steps a c

end Verif.Pool
