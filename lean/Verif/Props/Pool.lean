import Verif.Lemmas.Pool
import Verif.Props.FileSample
/- Several documents of one process written at the same time, each by a goroutine of its own. -/
set_option maxRecDepth 10000
namespace Verif.Pool
open Objects PdfObject ObjectValue

/-- **C73** Documents written at the same time, by goroutines of one process that share the pool of buffers, do not disturb each other:
however the steps of the goroutines are interleaved, whichever buffers the pool gives or loses and in whatever pieces the buffers are filled, no two
goroutines ever have the same buffer, what the writer of a document has got is a beginning of the document's file, a goroutine at its end has
written exactly the file it writes alone and has given its buffer back, and no goroutine ever has to wait for another one. -/
theorem documents_at_once (cut : Nat → Bytes → List Bytes) (e : Nat → Env) (d : Nat → Doc.Doc) (he : ∀ t, Sound (e t))
    (hc : ∀ t b, (cut t b).flatten = b) {s : State} (hs : Steps (initial fun t => compileTask (cut t) (e t) (d t)) s) :
    (∀ t u i, (s.threads t).held = some i → (s.threads u).held = some i → t = u) ∧
    (∀ t, (s.threads t).out <+: file (e t) (d t)) ∧
    (∀ t, (s.threads t).task = .done () → (s.threads t).out = file (e t) (d t) ∧ (s.threads t).held = none) ∧
    ∀ t, ∃ s', Steps s s' ∧ (s'.threads t).task = .done () ∧ ∀ u, u ≠ t → s'.threads u = s.threads u := by
  have h := Inv.steps (fun t => proper_compile (cut t) (e t) (d t)) hs
  have hr : ∀ t, ((s.threads t).task.run (s.threads t).out (s.buffer t)).1 = file (e t) (d t) := fun t => by
    rw [h.run t]; exact run_compile (he t) (hc t) (d t) []
  refine ⟨h.apart, fun t => ?_, fun t ht => ?_, fun t => ?_⟩
  · rw [← hr t]; exact run_prefix _ _ _
  · obtain ⟨m, h1, h2⟩ := h.proper t
    have := hr t
    rw [ht] at this h1
    exact ⟨this, h2.1.1 h1⟩
  · obtain ⟨m, h1, h2⟩ := h.proper t
    exact finish t _ m s rfl h1 h2.1

/-- The next step of goroutine `t`, with the buffer `c` of the pool or a new one. -/
def advance (s : State) (t : Nat) (c : Option Nat) : State :=
  match (s.threads t).task, (s.threads t).held, c with
  | .say b k, _, _ => s.set t { s.threads t with task := k, out := (s.threads t).out ++ b }
  | .offset k, _, _ => s.set t { s.threads t with task := k (s.threads t).out.length }
  | .get k, none, some i => if i ∈ s.pool then { s.set t { s.threads t with task := k, held := some i } with pool := s.pool.erase i } else s
  | .get k, none, none => { (s.write s.next []).set t { s.threads t with task := k, held := some s.next } with next := s.next + 1 }
  | .fill b k, some i, _ => (s.write i (s.heap i ++ b)).set t { s.threads t with task := k }
  | .look k, some i, _ => s.set t { s.threads t with task := k (s.heap i) }
  | .reset k, some i, _ => (s.write i []).set t { s.threads t with task := k }
  | .put k, some i, _ => { s.set t { s.threads t with task := k, held := none } with pool := i :: s.pool }
  | _, _, _ => s

theorem advance_steps (s : State) (t : Nat) (c : Option Nat) : Steps s (advance s t c) := by
  unfold advance
  split
  · rename_i h; exact (Steps.refl s).tail (.say h)
  · rename_i h; exact (Steps.refl s).tail (.offset h)
  · rename_i h1 h2
    split
    · rename_i h3; exact (Steps.refl s).tail (.getOld h1 h2 h3)
    · exact .refl s
  · rename_i h1 h2; exact (Steps.refl s).tail (.getNew h1 h2)
  · rename_i h1 h2; exact (Steps.refl s).tail (.fill h1 h2)
  · rename_i h1 h2; exact (Steps.refl s).tail (.look h1 h2)
  · rename_i h1 h2; exact (Steps.refl s).tail (.reset h1 h2)
  · rename_i h1 h2; exact (Steps.refl s).tail (.put h1 h2)
  · exact .refl s

/-- A schedule. -/
def schedule (s : State) (l : List (Nat × Option Nat)) : State := l.foldl (fun s x => advance s x.1 x.2) s

theorem schedule_steps (l : List (Nat × Option Nat)) (s : State) : Steps s (schedule s l) := by
  induction l generalizing s with
  | nil => exact .refl s
  | cons x l ih => exact (advance_steps s x.1 x.2).trans (ih _)

/-- Two documents: page content and a character map; only the content. -/
def twoDocs (t : Nat) : Doc.Doc := match t with
  | 0 => { objs := [.content [{ tag := 7 }], .unicodeMap] }
  | _ => { objs := [.content [{ tag := 8 }]] }

def twoEnv : Env := { Props.sampleEnv with key := none }

def twoTasks : State := initial fun t => compileTask (fun b => [b]) twoEnv (twoDocs t)

/-- The first goroutine writes its page content and gives the buffer back; both go on in turn, the second with the buffer of the first, the
first with a new one. -/
def twoSteps : List (Nat × Option Nat) :=
  List.replicate 15 (0, none) ++ [(1, none), (0, none), (1, none), (0, none), (1, none), (0, none), (1, some 0), (0, none), (0, none),
    (1, none), (0, none)]

/-- The assumptions of `documents_at_once` hold for them, after those steps. -/
example : (∀ _ : Nat, Sound twoEnv) ∧ (∀ (_ : Nat) (b : Bytes), ([b] : List Bytes).flatten = b) ∧ Steps twoTasks (schedule twoTasks twoSteps) :=
  ⟨fun _ => ⟨fun b => by simp [twoEnv, Props.sampleEnv, Props.toyMd5], by simp [twoEnv]⟩, fun _ b => by simp, schedule_steps _ _⟩

/-- Each has a buffer, with what it wrote there; the second has the buffer the first had. -/
example : (((schedule twoTasks twoSteps).threads 1).held, ((schedule twoTasks twoSteps).threads 0).held,
    (schedule twoTasks twoSteps).heap 0, (schedule twoTasks twoSteps).heap 1, ((schedule twoTasks (twoSteps.take 15)).threads 0).held) =
    (some 0, some 1, lit "8\n", lit "cmap", some 0) := by decide +kernel

end Verif.Pool
