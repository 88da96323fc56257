import Verif.Model.Pool
import Verif.Lemmas.Compile
import Verif.Lemmas.Objects.Data
/- The pool: what a goroutine writes does not depend on the others. -/
set_option maxRecDepth 10000
namespace Verif.Pool
open Objects PdfObject ObjectValue

/-- A task alone, with a buffer of its own: what was written, the buffer, the result. -/
def Task.run {α : Type} : Task α → Bytes → Bytes → Bytes × Bytes × α
  | .done a, out, buf => (out, buf, a)
  | .say b k, out, buf => k.run (out ++ b) buf
  | .offset k, out, buf => (k out.length).run out buf
  | .get k, out, _ => k.run out []
  | .fill b k, out, buf => k.run out (buf ++ b)
  | .look k, out, buf => (k buf).run out buf
  | .reset k, out, _ => k.run out []
  | .put k, out, _ => k.run out []

theorem run_andThen {α β : Type} (t : Task α) (f : α → Task β) : ∀ out buf,
    (t.andThen f).run out buf = (f (t.run out buf).2.2).run (t.run out buf).1 (t.run out buf).2.1 := by
  induction t with
  | done a => intros; rfl
  | say b k ih => intros; exact ih _ _
  | offset k ih => intros; exact ih _ _ _
  | get k ih => intros; exact ih _ _
  | fill b k ih => intros; exact ih _ _
  | look k ih => intros; exact ih _ _ _
  | reset k ih => intros; exact ih _ _
  | put k ih => intros; exact ih _ _

/-- Does the task use buffers only while it has one, and give them back empty?  The first argument: has it a buffer, and is this surely
empty?  At the end it has none. -/
def Proper {α : Type} : Option Bool → Task α → Prop
  | m, .done _ => m = none
  | m, .say _ k => Proper m k
  | m, .offset k => ∀ n, Proper m (k n)
  | m, .get k => m = none ∧ Proper (some true) k
  | m, .fill _ k => m ≠ none ∧ Proper (some false) k
  | m, .look k => m ≠ none ∧ ∀ x, Proper m (k x)
  | m, .reset k => m ≠ none ∧ Proper (some true) k
  | m, .put k => m = some true ∧ Proper none k

theorem proper_andThen {α β : Type} (f : α → Task β) (hf : ∀ a, Proper none (f a)) (t : Task α) :
    ∀ m, Proper m t → Proper m (t.andThen f) := by
  induction t with
  | done a => rintro m h; obtain rfl : m = none := h; exact hf a
  | say b k ih => intro m h; exact ih m h
  | offset k ih => intro m h n; exact ih n m (h n)
  | get k ih => rintro m ⟨rfl, h⟩; exact ⟨rfl, ih _ h⟩
  | fill b k ih => rintro m ⟨h0, h⟩; exact ⟨h0, ih _ h⟩
  | look k ih => rintro m ⟨h0, h⟩; exact ⟨h0, fun x => ih x _ (h x)⟩
  | reset k ih => rintro m ⟨h0, h⟩; exact ⟨h0, ih _ h⟩
  | put k ih => rintro m ⟨h0, h⟩; exact ⟨h0, ih _ h⟩

/-- The content of a goroutine's buffer. -/
def State.buffer (s : State) (t : Nat) : Bytes := match (s.threads t).held with
  | some i => s.heap i
  | none => []

/-- What a goroutine knows about its buffer is true. -/
def Knows (m : Option Bool) (held : Option Nat) (buf : Bytes) : Prop := (m = none ↔ held = none) ∧ (m = some true → buf = [])

structure Inv (tasks : Nat → Task Unit) (s : State) : Prop where
  empty : ∀ i ∈ s.pool, s.heap i = []
  nodup : s.pool.Nodup
  bound : ∀ i ∈ s.pool, i < s.next
  heldBound : ∀ t i, (s.threads t).held = some i → i < s.next
  heldOut : ∀ t i, (s.threads t).held = some i → i ∉ s.pool
  apart : ∀ t u i, (s.threads t).held = some i → (s.threads u).held = some i → t = u
  run : ∀ t, (s.threads t).task.run (s.threads t).out (s.buffer t) = (tasks t).run [] []
  proper : ∀ t, ∃ m, Proper m (s.threads t).task ∧ Knows m (s.threads t).held (s.buffer t)

theorem inv_initial {tasks : Nat → Task Unit} (hp : ∀ t, Proper none (tasks t)) : Inv tasks (initial tasks) :=
  ⟨by simp [initial], by simp [initial], by simp [initial], by simp [initial], by simp [initial], by simp [initial], fun t => rfl,
    fun t => ⟨none, hp t, by simp [Knows, initial]⟩⟩

@[simp] theorem set_same (s : State) (t : Nat) (th : Thread) : (s.set t th).threads t = th := by simp [State.set]
theorem set_other (s : State) {t u : Nat} (th : Thread) (h : u ≠ t) : (s.set t th).threads u = s.threads u := by simp [State.set, h]

/-- A step that changes one goroutine, its buffer, the pool. -/
theorem Inv.change {tasks : Nat → Task Unit} {s s' : State} (h : Inv tasks s) (t : Nat) (hn : s.next ≤ s'.next)
    (hempty : ∀ i ∈ s'.pool, s'.heap i = []) (hnodup : s'.pool.Nodup) (hbound : ∀ i ∈ s'.pool, i < s'.next)
    (hother : ∀ u, u ≠ t → s'.threads u = s.threads u)
    (hheap : ∀ u i, u ≠ t → (s.threads u).held = some i → s'.heap i = s.heap i ∧ i ∉ s'.pool ∧ (s'.threads t).held ≠ some i)
    (hown : ∀ i, (s'.threads t).held = some i → i < s'.next ∧ i ∉ s'.pool)
    (hr : (s'.threads t).task.run (s'.threads t).out (s'.buffer t) = (s.threads t).task.run (s.threads t).out (s.buffer t))
    (hp : ∃ m, Proper m (s'.threads t).task ∧ Knows m (s'.threads t).held (s'.buffer t)) : Inv tasks s' := by
  have hbuf : ∀ u, u ≠ t → s'.buffer u = s.buffer u := by
    intro u hu
    simp only [State.buffer, hother u hu]
    cases hh : (s.threads u).held with
    | none => rfl
    | some i => exact (hheap u i hu hh).1
  refine ⟨hempty, hnodup, hbound, ?_, ?_, ?_, ?_, ?_⟩
  · intro u i hi
    by_cases hu : u = t
    · subst hu; exact (hown i hi).1
    · rw [hother u hu] at hi; exact Nat.lt_of_lt_of_le (h.heldBound u i hi) hn
  · intro u i hi
    by_cases hu : u = t
    · subst hu; exact (hown i hi).2
    · rw [hother u hu] at hi; exact (hheap u i hu hi).2.1
  · intro u v i hi hj
    by_cases hu : u = t
    · by_cases hv : v = t
      · rw [hu, hv]
      · subst hu; rw [hother v hv] at hj; exact absurd hi (hheap v i hv hj).2.2
    · rw [hother u hu] at hi
      by_cases hv : v = t
      · subst hv; exact absurd hj (hheap u i hu hi).2.2
      · rw [hother v hv] at hj; exact h.apart u v i hi hj
  · intro u
    by_cases hu : u = t
    · subst hu; rw [hr]; exact h.run u
    · rw [hother u hu, hbuf u hu]; exact h.run u
  · intro u
    by_cases hu : u = t
    · subst hu; exact hp
    · rw [hother u hu, hbuf u hu]; exact h.proper u

/-- A step that leaves pool and buffers alone and changes one goroutine, which keeps its buffer. -/
theorem Inv.local {tasks : Nat → Task Unit} {s : State} (h : Inv tasks s) (t : Nat) (th : Thread) (hh : th.held = (s.threads t).held)
    (hr : th.task.run th.out (s.buffer t) = (s.threads t).task.run (s.threads t).out (s.buffer t))
    (hp : ∀ m, Proper m (s.threads t).task → Knows m (s.threads t).held (s.buffer t) → Proper m th.task) : Inv tasks (s.set t th) := by
  have hb : (s.set t th).buffer t = s.buffer t := by simp only [State.buffer, set_same, hh]; rfl
  refine h.change t (Nat.le_refl _) h.empty h.nodup h.bound (fun u hu => set_other s th hu) (fun u i hu hi => ⟨rfl, h.heldOut u i hi, ?_⟩) ?_ ?_ ?_
  · rw [set_same, hh]; exact fun e => hu (h.apart u t i hi e)
  · intro i hi
    rw [set_same, hh] at hi
    exact ⟨h.heldBound t i hi, h.heldOut t i hi⟩
  · rw [hb, set_same, hr]
  · obtain ⟨m, h1, h2⟩ := h.proper t
    rw [hb, set_same, hh]
    exact ⟨m, hp m h1 h2, h2⟩

/-- A step that changes one goroutine and its buffer. -/
theorem Inv.own {tasks : Nat → Task Unit} {s : State} (h : Inv tasks s) (t i : Nat) (hi : (s.threads t).held = some i) (b : Bytes) (th : Thread)
    (hh : th.held = some i) (hr : th.task.run th.out b = (s.threads t).task.run (s.threads t).out (s.buffer t))
    (hp : ∃ m, Proper m th.task ∧ Knows m (some i) b) : Inv tasks ((s.write i b).set t th) := by
  have hb : ((s.write i b).set t th).buffer t = b := by simp only [State.buffer, set_same, hh]; simp [State.set, State.write]
  have hne : ∀ j, j ≠ i → ((s.write i b).set t th).heap j = s.heap j := fun j hj => by
    show (if j = i then b else s.heap j) = _
    rw [if_neg hj]
  refine h.change t (Nat.le_refl _) (fun j hj => ?_) h.nodup h.bound (fun u hu => set_other _ th hu) (fun u j hu hj => ⟨?_, h.heldOut u j hj, ?_⟩) ?_ ?_ ?_
  · rw [hne j fun e => h.heldOut t i hi (e ▸ hj)]; exact h.empty j hj
  · exact hne j fun e => hu (h.apart u t i (e ▸ hj) hi)
  · rw [set_same, hh]; exact fun e => hu (h.apart u t j hj (by rw [hi, e]))
  · intro j hj
    rw [set_same, hh] at hj
    obtain rfl := Option.some.inj hj
    exact ⟨h.heldBound t i hi, h.heldOut t i hi⟩
  · rw [hb, set_same, hr]
  · rw [hb, set_same, hh]; exact hp

theorem Inv.step {tasks : Nat → Task Unit} {s s' : State} (h : Inv tasks s) (hs : Step s s') : Inv tasks s' := by
  cases hs with
  | @say t b k hk => exact h.local t _ rfl (by rw [hk]; rfl) fun m h1 _ => by rw [hk] at h1; exact h1
  | @offset t k hk => exact h.local t _ rfl (by rw [hk]; rfl) fun m h1 _ => by rw [hk] at h1; exact h1 _
  | @fill t i b k hk hh =>
    have hb : s.buffer t = s.heap i := by simp [State.buffer, hh]
    obtain ⟨m, h1, h2⟩ := h.proper t
    rw [hk] at h1
    exact h.own t i hh _ _ (by exact hh) (by rw [hk, hb]; rfl) ⟨some false, h1.2, by simp [Knows]⟩
  | @look t i k hk hh =>
    have hb : s.buffer t = s.heap i := by simp [State.buffer, hh]
    exact h.local t _ rfl (by rw [hk, hb]; rfl) fun m h1 _ => by rw [hk] at h1; exact h1.2 _
  | @reset t i k hk hh =>
    obtain ⟨m, h1, h2⟩ := h.proper t
    rw [hk] at h1
    exact h.own t i hh _ _ (by exact hh) (by rw [hk]; rfl) ⟨some true, h1.2, by simp [Knows]⟩
  | @lose i hi =>
    exact ⟨fun j hj => h.empty j (List.mem_of_mem_erase hj), h.nodup.erase i, fun j hj => h.bound j (List.mem_of_mem_erase hj), h.heldBound,
      fun t j hj hm => h.heldOut t j hj (List.mem_of_mem_erase hm), h.apart, h.run, h.proper⟩
  | @put t i k hk hh =>
    have hb : s.buffer t = s.heap i := by simp [State.buffer, hh]
    obtain ⟨m, h1, h2⟩ := h.proper t
    rw [hk] at h1
    have he : s.heap i = [] := hb ▸ h2.2 h1.1
    refine h.change t (Nat.le_refl _) ?_ (List.nodup_cons.2 ⟨h.heldOut t i hh, h.nodup⟩) ?_ (fun u hu => set_other s _ hu) ?_ ?_ ?_ ?_
    · intro j hj
      rcases List.mem_cons.1 hj with rfl | hj
      · exact he
      · exact h.empty j hj
    · intro j hj
      rcases List.mem_cons.1 hj with rfl | hj
      · exact h.heldBound t j hh
      · exact h.bound j hj
    · intro u j hu hj
      refine ⟨rfl, fun hm => ?_, by simp [State.set]⟩
      rcases List.mem_cons.1 hm with rfl | hm
      · exact hu (h.apart u t j hj hh)
      · exact h.heldOut u j hj hm
    · intro j hj; simp [State.set] at hj
    · rw [hk]; simp [State.set, State.buffer, Task.run]
    · exact ⟨none, by simpa [State.set] using h1.2, by simp [State.set, Knows]⟩
  | @getOld t i k hk hh hi =>
    obtain ⟨m, h1, h2⟩ := h.proper t
    rw [hk] at h1
    refine h.change t (Nat.le_refl _) (fun j hj => h.empty j (List.mem_of_mem_erase hj)) (h.nodup.erase i)
      (fun j hj => h.bound j (List.mem_of_mem_erase hj)) (fun u hu => set_other s _ hu) ?_ ?_ ?_ ?_
    · intro u j hu hj
      refine ⟨rfl, fun hm => h.heldOut u j hj (List.mem_of_mem_erase hm), ?_⟩
      simp only [State.set, if_pos, ne_eq, Option.some.injEq]
      rintro rfl
      exact h.heldOut u i hj hi
    · intro j hj
      simp only [State.set, if_pos, Option.some.injEq] at hj
      subst hj
      exact ⟨h.bound i hi, fun hm => (h.nodup.mem_erase_iff.1 hm).1 rfl⟩
    · rw [hk]; simp [State.set, State.buffer, Task.run, h.empty i hi]
    · exact ⟨some true, by simpa [State.set] using h1.2, by simp [State.set, State.buffer, Knows, h.empty i hi]⟩
  | @getNew t k hk hh =>
    obtain ⟨m, h1, h2⟩ := h.proper t
    rw [hk] at h1
    have hne : ∀ j, j ≠ s.next → (s.write s.next []).heap j = s.heap j := fun j hj => by
      show (if j = s.next then _ else s.heap j) = _
      rw [if_neg hj]
    refine h.change t (Nat.le_succ _) ?_ h.nodup (fun j hj => Nat.lt_succ_of_lt (h.bound j hj)) (fun u hu => set_other _ _ hu) ?_ ?_ ?_ ?_
    · intro j hj
      have := h.bound j hj
      exact (hne j (by omega)).trans (h.empty j hj)
    · intro u j hu hj
      have := h.heldBound u j hj
      refine ⟨hne j (by omega), h.heldOut u j hj, ?_⟩
      simp only [State.set, if_pos, ne_eq, Option.some.injEq]
      omega
    · intro j hj
      simp only [State.set, if_pos, Option.some.injEq] at hj
      subst hj
      exact ⟨Nat.lt_succ_self _, fun hm => Nat.lt_irrefl _ (h.bound _ hm)⟩
    · rw [hk]; simp [State.set, State.write, State.buffer, Task.run]
    · exact ⟨some true, by simpa [State.set] using h1.2, by simp [State.set, State.write, State.buffer, Knows]⟩

theorem Inv.steps {tasks : Nat → Task Unit} (hp : ∀ t, Proper none (tasks t)) {s : State} (h : Steps (initial tasks) s) : Inv tasks s := by
  generalize hi : initial tasks = a at h
  induction h with
  | refl => subst hi; exact inv_initial hp
  | tail _ hs ih => exact ih.step hs

theorem Steps.trans {a b c : State} (h1 : Steps a b) (h2 : Steps b c) : Steps a c := by
  induction h2 with
  | refl => exact h1
  | tail _ hs ih => exact ih.tail hs

/-- A goroutine with a buffer if it needs one comes to its end without the others. -/
theorem finish (t : Nat) (task : Task Unit) : ∀ (m : Option Bool) (s : State), (s.threads t).task = task → Proper m task →
    (m = none ↔ (s.threads t).held = none) → ∃ s', Steps s s' ∧ (s'.threads t).task = .done () ∧ ∀ u, u ≠ t → s'.threads u = s.threads u := by
  have more : ∀ {s s' : State}, Step s s' → (∀ u, u ≠ t → s'.threads u = s.threads u) →
      (∃ s'', Steps s' s'' ∧ (s''.threads t).task = .done () ∧ ∀ u, u ≠ t → s''.threads u = s'.threads u) →
      ∃ s'', Steps s s'' ∧ (s''.threads t).task = .done () ∧ ∀ u, u ≠ t → s''.threads u = s.threads u := by
    rintro s s' h1 h2 ⟨s'', h3, h4, h5⟩
    exact ⟨s'', ((Steps.refl s).tail h1).trans h3, h4, fun u hu => (h5 u hu).trans (h2 u hu)⟩
  have has : ∀ {m : Option Bool} {s : State}, m ≠ none → (m = none ↔ (s.threads t).held = none) → ∃ i, (s.threads t).held = some i := by
    intro m s h1 h2
    cases hh : (s.threads t).held with
    | none => exact absurd (h2.2 hh) h1
    | some i => exact ⟨i, rfl⟩
  induction task with
  | done a => intro m s ht hp hm; exact ⟨s, .refl s, ht, fun _ _ => rfl⟩
  | say b k ih => intro m s ht hp hm; exact more (.say ht) (fun u hu => set_other _ _ hu) (ih m _ (by simp) hp (by simpa using hm))
  | offset k ih => intro m s ht hp hm; exact more (.offset ht) (fun u hu => set_other _ _ hu) (ih (s.threads t).out.length m _ (by simp) (hp _) (by simpa using hm))
  | get k ih =>
    intro m s ht hp hm
    exact more (.getNew ht (hm.1 hp.1)) (fun u hu => set_other _ _ hu) (ih (some true) _ (by simp [State.set]) hp.2 (by simp [State.set]))
  | fill b k ih =>
    intro m s ht hp hm
    obtain ⟨i, hi⟩ := has hp.1 hm
    exact more (.fill ht hi) (fun u hu => set_other _ _ hu) (ih (some false) _ (by simp) hp.2 (by simp [hi]))
  | look k ih =>
    intro m s ht hp hm
    obtain ⟨i, hi⟩ := has hp.1 hm
    exact more (.look ht hi) (fun u hu => set_other _ _ hu) (ih (s.heap i) m _ (by simp) (hp.2 _) (by simpa using hm))
  | reset k ih =>
    intro m s ht hp hm
    obtain ⟨i, hi⟩ := has hp.1 hm
    exact more (.reset ht hi) (fun u hu => set_other _ _ hu) (ih (some true) _ (by simp) hp.2 (by simp [hi]))
  | put k ih =>
    intro m s ht hp hm
    obtain ⟨i, hi⟩ := has (m := m) (by simp [hp.1]) hm
    exact more (.put ht hi) (fun u hu => set_other _ _ hu) (ih none _ (by simp [State.set]) hp.2 (by simp [State.set]))

/-- What is written only grows. -/
theorem run_prefix {α : Type} (t : Task α) : ∀ out buf, out <+: (t.run out buf).1 := by
  induction t with
  | done a => intro out buf; exact List.prefix_refl _
  | say b k ih => intro out buf; exact (List.prefix_append out b).trans (ih _ _)
  | offset k ih => intro out buf; exact ih _ _ _
  | get k ih => intro out buf; exact ih _ _
  | fill b k ih => intro out buf; exact ih _ _
  | look k ih => intro out buf; exact ih _ _ _
  | reset k ih => intro out buf; exact ih _ _
  | put k ih => intro out buf; exact ih _ _

/-- Alone, the task writes these bytes. -/
def Emits (t : Task Unit) (b : Bytes) : Prop := ∀ out buf, (t.run out buf).1 = out ++ b

theorem run_fills {α : Type} (l : List Bytes) (k : Task α) (out buf : Bytes) : (fills l k).run out buf = k.run out (buf ++ l.flatten) := by
  induction l generalizing buf with
  | nil => simp [fills]
  | cons b l ih => simpa [fills, Task.run] using ih (buf ++ b)

theorem run_writes {α : Type} (l : List Bytes) (k : Task α) (out buf : Bytes) : (writes l k).run out buf = k.run (out ++ l.flatten) buf := by
  induction l generalizing out with
  | nil => simp [writes]
  | cons b l ih => simpa [writes, Task.run] using ih (out ++ b)

theorem proper_fills {α : Type} (l : List Bytes) (k : Task α) (h : ∀ b, Proper (some b) k) : ∀ b, Proper (some b) (fills l k) := by
  induction l with
  | nil => exact h
  | cons b l ih => exact fun c => ⟨by simp, ih false⟩

theorem proper_writes {α : Type} (l : List Bytes) (k : Task α) (m : Option Bool) (h : Proper m k) : Proper m (writes l k) := by
  induction l with
  | nil => exact h
  | cons b l ih => exact ih

theorem emits_objs (i : Nat) (ts : List (Task Unit)) (bs : List Bytes) (h : List.Forall₂ Emits ts bs) : ∀ out buf,
    ((objsTask i ts).run out buf).1 = out ++ Compile.objSection i bs ∧
      ((objsTask i ts).run out buf).2.2 = Compile.objOffsets i out.length bs := by
  induction h generalizing i with
  | nil => intro out buf; simp [objsTask, Task.run, Compile.objSection, Compile.objOffsets]
  | @cons t b ts bs ht _ ih =>
    intro out buf
    simp only [objsTask, Task.run, run_andThen]
    rw [ht]
    obtain ⟨h1, h2⟩ := ih (i + 1) (out ++ (dec (i + 1) ++ lit " 0 obj\n") ++ b ++ lit "endobj\n\n")
      (t.run (out ++ (dec (i + 1) ++ lit " 0 obj\n")) buf).2.1
    rw [h1, h2]
    constructor
    · simp [Compile.objSection]
    · simp [Compile.objOffsets, Nat.add_assoc]

theorem proper_objs (i : Nat) (ts : List (Task Unit)) (h : ∀ t ∈ ts, Proper none t) : Proper none (objsTask i ts) := by
  induction ts generalizing i with
  | nil => exact rfl
  | cons t ts ih =>
    intro n
    refine proper_andThen _ (fun _ => ?_) t none (h t (by simp))
    exact proper_andThen (fun l => Task.done (n :: l)) (fun _ => rfl) _ none (ih (i + 1) fun u hu => h u (by simp [hu]))

theorem lit_length : lit "<</Length " = lit "<<" ++ lit "/Length " := by decide +kernel
theorem lit_group : lit "\t/Length " = lit "\t" ++ lit "/Length " := by decide +kernel
theorem lit_stream : lit "\n>>\nstream\n" = lit "\n" ++ lit ">>\n" ++ lit "stream\n" := by decide +kernel

theorem emits_obj {e : Env} (he : Sound e) {cut : Bytes → List Bytes} (hc : ∀ b, (cut b).flatten = b) (d : Doc.Doc) (i : Nat) (o : Doc.Obj) :
    Emits (objTask cut e d i o) ((objBytes e d i o).getD []) := by
  intro out buf
  have hs := fun data => cipher_stored he (i + 1) data
  cases o with
  | content es =>
    have := hs (contentData e es)
    simp only [objTask, content, objBytes, Streams.content, Task.run, run_fills, run_writes, hc, this]
    cases hk : e.key with
    | none =>
      simp only [Streams.cipher, hk, Option.some.injEq] at this
      simp only [Task.run, run_writes, putBuffer, List.nil_append, ← this]
      cases e.deflate.isSome <;> simp
    | some key =>
      simp only [Streams.cipher, hk] at this
      simp only [Task.run, putBuffer, List.nil_append, this]
      cases e.deflate.isSome <;> simp [Task.run]
  | unicodeMap =>
    have := hs (e.cmap (i + 4))
    simp only [objTask, unicodeMap, objBytes, Streams.unicodeMap, Task.run, run_fills, run_writes, hc, this]
    cases hk : e.key with
    | none =>
      simp only [Streams.cipher, hk, Option.some.injEq] at this
      simp [Task.run, putBuffer, ← this]
    | some key =>
      simp only [Streams.cipher, hk] at this
      simp [Task.run, putBuffer, this]
  | fontFile =>
    have := hs (e.fontFile (i + 3)).1
    simp only [objTask, fontFile, objBytes, Streams.fontFile, Task.run, run_fills, run_writes, hc, this]
    cases hk : e.key with
    | none =>
      simp only [Streams.cipher, hk, Option.some.injEq] at this
      simp [Task.run, putBuffer, ← this, lit_length]
    | some key =>
      simp only [Streams.cipher, hk] at this
      simp [Task.run, putBuffer, this, lit_length]
  | group es => simp [objTask, group, objBytes, Streams.xobjectGroup, Task.run, run_fills, hc, putBuffer, lit_group, lit_stream]
  | _ => rfl

theorem proper_put {b : Bool} : Proper (some b) (putBuffer (.done ())) := ⟨by simp, rfl, rfl⟩

theorem proper_obj (cut : Bytes → List Bytes) (e : Env) (d : Doc.Doc) (i : Nat) (o : Doc.Obj) : Proper none (objTask cut e d i o) := by
  cases o with
  | content es =>
    refine ⟨rfl, proper_fills _ _ (fun b => ?_) true⟩
    refine proper_writes _ _ _ ⟨by simp, fun x => ?_⟩
    simp only [Proper]
    cases e.key with
    | none => exact ⟨by simp, fun x => ⟨by simp, proper_writes _ _ _ proper_put⟩⟩
    | some key =>
      refine ⟨by simp, fun x => ?_⟩
      dsimp only
      split
      · exact proper_put
      · exact proper_put
  | unicodeMap =>
    refine ⟨rfl, proper_fills _ _ (fun b => ?_) true⟩
    refine ⟨by simp, fun x => ?_⟩
    simp only [Proper]
    cases e.key with
    | none => exact ⟨by simp, fun x => ⟨by simp, proper_put⟩⟩
    | some key =>
      refine ⟨by simp, fun x => ?_⟩
      dsimp only
      split
      · exact proper_put
      · exact proper_put
  | fontFile =>
    refine ⟨rfl, proper_fills _ _ (fun b => ?_) true⟩
    refine ⟨by simp, fun x => ?_⟩
    simp only [Proper]
    cases e.key with
    | none => exact ⟨by simp, fun x => proper_put⟩
    | some key =>
      refine ⟨by simp, fun x => ?_⟩
      dsimp only
      split
      · exact proper_put
      · exact proper_put
  | group es =>
    refine ⟨rfl, proper_fills _ _ (fun b => ?_) true⟩
    exact ⟨by simp, fun x => ⟨by simp, fun y => proper_put⟩⟩
  | _ => exact rfl

theorem proper_compile (cut : Bytes → List Bytes) (e : Env) (d : Doc.Doc) : Proper none (compileTask cut e d) := by
  refine proper_andThen _ (fun l => ?_) _ none (proper_objs 0 _ fun t ht => ?_)
  · intro n
    exact proper_writes _ (.done ()) none rfl
  obtain ⟨i, hi, rfl⟩ := List.mem_mapIdx.1 ht
  exact proper_obj _ _ _ _ _

/-- Alone, the goroutine writes the file of its document. -/
theorem run_compile {e : Env} (he : Sound e) {cut : Bytes → List Bytes} (hc : ∀ b, (cut b).flatten = b) (d : Doc.Doc) (buf : Bytes) :
    ((compileTask cut e d).run [] buf).1 = file e d := by
  have hf : List.Forall₂ Emits (d.objs.mapIdx (objTask cut e d)) ((progs e d).map Compile.Prog.body) := by
    rw [List.forall₂_iff_get]
    refine ⟨by simp [progs], fun i h1 h2 => ?_⟩
    simpa [progs, Compile.Prog.chunk, Compile.Prog.body] using emits_obj he hc d i _
  obtain ⟨h1, h2⟩ := emits_objs 0 _ _ hf Compile.header buf
  simp only [compileTask, Task.run, run_andThen, run_writes, List.nil_append]
  rw [h1, h2, file, Compile.compileBytes_eq]
  simp [progs]

end Verif.Pool
