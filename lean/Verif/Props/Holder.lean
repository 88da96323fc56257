import Verif.Spec.Holder
import Mathlib.Data.List.Forall2
import Mathlib.Data.List.Induction
import Mathlib.Data.List.Nodup
/- C80: a picture is drawn from the data of its holder. -/
namespace Verif.Holder

theorem filesAfter_append (a b : List Act) : ∀ files, filesAfter files (a ++ b) = filesAfter (filesAfter files a) b := by
  induction a with
  | nil => intro f; rfl
  | cons x a ih => intro f; cases x <;> exact ih _

theorem sources_append (e : Env) (a b : List Act) : ∀ files, sources e files (a ++ b) = sources e files a ++ sources e (filesAfter files a) b := by
  induction a with
  | nil => intro f; rfl
  | cons x a ih =>
    intro f
    simp only [List.cons_append, sources, ih, List.append_assoc]
    congr 3
    exact (filesAfter_append [x] a f).symm ▸ rfl

theorem run_append (e : Env) (a b : List Act) : ∀ w, run e w (a ++ b) = run e (run e w a) b := by
  induction a with
  | nil => intro w; rfl
  | cons x a ih => intro w; exact ih _

theorem held_append (e : Env) (files : Bytes → Option Bytes) (a b : List Act) :
    held e files (a ++ b) = held e files a ++ held e (filesAfter files a) b := by
  simp [held, sources_append]

theorem asked_mono {e : Env} {hs more : List (Bytes × Bytes)} {a : Act} {u : Nat × Bytes × Kind} (h : u ∈ asked e hs a) : u ∈ asked e (hs ++ more) a := by
  have key : ∀ (i : Nat) (f : Bytes × Bytes → Nat × Bytes × Kind), u ∈ (hs[i]?.map f).toList → u ∈ ((hs ++ more)[i]?.map f).toList := by
    intro i f hu
    cases hi : hs[i]? with
    | none => rw [hi] at hu; simp at hu
    | some p =>
      have : (hs ++ more)[i]? = some p := by
        obtain ⟨hlt, -⟩ := List.getElem?_eq_some_iff.1 hi
        rw [List.getElem?_append_left hlt, hi]
      rw [this]; rw [hi] at hu; exact hu
  cases a with
  | draw d i mask sized =>
    cases mask with
    | none => exact key _ _ h
    | some m =>
      rcases List.mem_append.1 h with h | h
      · exact List.mem_append.2 (.inl (key _ _ h))
      · exact List.mem_append.2 (.inr (key _ _ h))
  | _ => exact h

theorem uses_mono {e : Env} {files : Bytes → Option Bytes} {a b : List Act} {u : Nat × Bytes × Kind} (h : u ∈ uses e files a) : u ∈ uses e files (a ++ b) := by
  obtain ⟨x, hx, hu⟩ := List.mem_flatMap.1 h
  refine List.mem_flatMap.2 ⟨x, List.mem_append.2 (.inl hx), ?_⟩
  rw [held_append]
  exact asked_mono hu

theorem uses_last {e : Env} {files : Bytes → Option Bytes} {acts : List Act} {a : Act} {u : Nat × Bytes × Kind} (h : u ∈ asked e (held e files (acts ++ [a])) a) :
    u ∈ uses e files (acts ++ [a]) := List.mem_flatMap.2 ⟨a, by simp, h⟩

/-! ### The invariant -/

/-- What the images of a document have to do with the data named and the uses asked for so far. -/
structure DocInv (S : List (Bool × Bytes × Bytes)) (U : List (Nat × Bytes × Kind)) (d : Nat) (doc : Document) : Prop where
  named : ∀ p ∈ doc.images, ∃ k, (k, p.id, p.data) ∈ S
  asked : ∀ p ∈ doc.images, (d, p.id, p.kind) ∈ U
  nodup : (doc.images.map (·.id)).Nodup

def HolderInv (h : Holder) (p : Bytes × Bytes) : Prop := h.id = p.1 ∧ (h.unread = p.2 ∨ h.unread = [])

structure Inv (e : Env) (files : Bytes → Option Bytes) (acts : List Act) (w : World) : Prop where
  fs : w.files = filesAfter files acts
  holders : List.Forall₂ HolderInv w.holders (held e files acts)
  docs : ∀ d, DocInv (sources e files acts) (uses e files acts) d (w.docs d)

theorem place_inv {e : Env} (he : ∀ z, e.accepts z [] = false) {S : List (Bool × Bytes × Bytes)} {U : List (Nat × Bytes × Kind)}
    (hS : ∀ p ∈ S, ∀ q ∈ S, p.2.1 = q.2.1 → p.2.2 = q.2.2) {kind : Kind} {sized : Bool} {d : Nat} {doc : Document} {h : Holder} {p : Bytes × Bytes} {k : Bool}
    (hd : DocInv S U d doc) (hh : HolderInv h p) (hp : (k, p) ∈ S) (hu : (d, p.1, kind) ∈ U) :
    HolderInv (place e kind sized doc h).1 p ∧ DocInv S U d (place e kind sized doc h).2.1 ∧
      ∀ b, (place e kind sized doc h).2.2 = some b → b.1 = p.2 ∧ (d, p.1, b.2) ∈ U := by
  unfold place
  cases hf : doc.images.find? (fun q => decide (q.id = h.id)) with
  | some q =>
    refine ⟨hh, hd, ?_⟩
    rintro b hb
    have hm := List.mem_of_find?_eq_some hf
    have hn : q.id = h.id := by simpa using List.find?_some hf
    obtain ⟨k', hk'⟩ := hd.named q hm
    obtain rfl := Option.some.inj hb
    refine ⟨hS _ hk' _ hp (by simp only; rw [hn, hh.1]), ?_⟩
    have := hd.asked q hm
    rw [hn, hh.1] at this
    exact this
  | none =>
    by_cases ha : e.accepts sized h.unread = true
    · simp only [if_pos ha]
      have hr : h.unread = p.2 := by
        rcases hh.2 with hr | hr
        · exact hr
        · rw [hr, he] at ha; cases ha
      refine ⟨⟨hh.1, .inr rfl⟩, ⟨?_, ?_, ?_⟩, ?_⟩
      · intro q hq
        rcases List.mem_append.1 hq with hq | hq
        · exact hd.named q hq
        · obtain rfl := List.mem_singleton.1 hq
          refine ⟨k, ?_⟩
          simp only
          rw [hh.1, hr]; exact hp
      · intro q hq
        rcases List.mem_append.1 hq with hq | hq
        · exact hd.asked q hq
        · obtain rfl := List.mem_singleton.1 hq
          simp only
          rw [hh.1]; exact hu
      · simp only [List.map_append, List.map_cons, List.map_nil]
        rw [List.nodup_append]
        refine ⟨hd.nodup, by simp, ?_⟩
        intro a ha' b hb hab
        obtain rfl := List.mem_singleton.1 hb
        obtain ⟨q, hq, rfl⟩ := List.mem_map.1 ha'
        have := List.find?_eq_none.1 hf q hq
        exact this (by simpa using hab)
      · intro b hb
        obtain rfl := Option.some.inj hb
        exact ⟨hr, hu⟩
    · simp only [if_neg ha]
      exact ⟨⟨hh.1, .inr rfl⟩, hd, by simp⟩

theorem World.place_none {e : Env} {kind : Kind} {sized : Bool} {w : World} {d h : Nat} (hh : w.holders[h]? = none) :
    w.place e kind sized d h = (w, none) := by
  unfold World.place; rw [hh]

theorem World.place_some {e : Env} {kind : Kind} {sized : Bool} {w : World} {d h : Nat} {x : Holder} (hh : w.holders[h]? = some x) :
    w.place e kind sized d h = ({ w with holders := w.holders.set h (Holder.place e kind sized (w.docs d) x).1, docs := Function.update w.docs d (Holder.place e kind sized (w.docs d) x).2.1 },
      (Holder.place e kind sized (w.docs d) x).2.2) := by
  unfold World.place; rw [hh]

theorem World.place_inv {e : Env} (he : ∀ z, e.accepts z [] = false) {files : Bytes → Option Bytes} {acts : List Act} (hS : Faithful e files acts)
    {kind : Kind} {sized : Bool} {w : World} {d h : Nat} (hw : Inv e files acts w)
    (hu : ∀ p, (held e files acts)[h]? = some p → (d, p.1, kind) ∈ uses e files acts) :
    Inv e files acts (w.place e kind sized d h).1 ∧
      ∀ b, (w.place e kind sized d h).2 = some b → ∃ n, (held e files acts)[h]? = some (n, b.1) ∧ (d, n, b.2) ∈ uses e files acts := by
  cases hh : w.holders[h]? with
  | none => rw [World.place_none hh]; exact ⟨hw, by simp⟩
  | some x =>
    rw [World.place_some hh]
    have hlt : h < w.holders.length := (List.getElem?_eq_some_iff.1 hh).1
    have hlen := hw.holders.length_eq
    obtain ⟨-, hg⟩ := List.forall₂_iff_get.1 hw.holders
    have hx : w.holders[h] = x := (List.getElem?_eq_some_iff.1 hh).2
    have hi : HolderInv x (held e files acts)[h] := by
      have := hg h hlt (by omega)
      simpa [hx] using this
    have hmem : (true, (held e files acts)[h]) ∈ sources e files acts := by
      have := List.getElem_mem (show h < (held e files acts).length by omega)
      obtain ⟨p, hp, hp2⟩ := List.mem_filterMap.1 this
      obtain ⟨k, p⟩ := p
      cases k with
      | true => simp only [if_true, Option.some.injEq] at hp2; rw [← hp2]; exact hp
      | false => simp at hp2
    have hget : (held e files acts)[h]? = some (held e files acts)[h] := List.getElem?_eq_getElem (by omega)
    obtain ⟨a1, a2, a3⟩ := Holder.place_inv (sized := sized) (kind := kind) he hS (hw.docs d) hi hmem (hu _ hget)
    refine ⟨⟨hw.fs, ?_, ?_⟩, ?_⟩
    · rw [List.forall₂_iff_get]
      refine ⟨by simpa using hlen, fun i h1 h2 => ?_⟩
      simp only [List.get_eq_getElem]
      by_cases hih : h = i
      · subst hih
        rw [List.getElem_set_self]
        exact a1
      · rw [List.getElem_set_ne hih]
        exact hg i (by simpa using h1) h2
    · intro d'
      by_cases hdd : d' = d
      · subst hdd; simp only [Function.update_self]; exact a2
      · simp only [Function.update_of_ne hdd]; exact hw.docs d'
    · intro b hb
      exact ⟨(held e files acts)[h].1, by rw [hget, (a3 b hb).1], (a3 b hb).2⟩

theorem once_inv {e : Env} (he : ∀ z, e.accepts z [] = false) {files : Bytes → Option Bytes} {acts : List Act} (hS : Faithful e files acts)
    {sized : Bool} {w : World} {d : Nat} {h : Holder} {k : Bool} (hw : Inv e files acts w) (hp : (k, h.id, h.unread) ∈ sources e files acts)
    (hu : (d, h.id, Kind.plain) ∈ uses e files acts) :
    Inv e files acts (w.once e sized d h).1 ∧
      ∀ b m, (w.once e sized d h).2 = .shows b m → b.1 = h.unread ∧ (d, h.id, b.2) ∈ uses e files acts ∧ m = none := by
  obtain ⟨a1, a2, a3⟩ := Holder.place_inv (sized := sized) he hS (hw.docs d) (h := h) ⟨rfl, .inl rfl⟩ hp hu
  refine ⟨⟨hw.fs, hw.holders, ?_⟩, ?_⟩
  · intro d'
    unfold World.once
    by_cases hdd : d' = d
    · subst hdd; simp only [Function.update_self]; exact a2
    · simp only [Function.update_of_ne hdd]; exact hw.docs d'
  · intro b m hb
    unfold World.once at hb
    simp only at hb
    split at hb
    · cases hb
    · next c hc =>
      simp only [Out.shows.injEq] at hb
      obtain ⟨rfl, rfl⟩ := hb
      exact ⟨(a3 c hc).1, (a3 c hc).2, rfl⟩

theorem Faithful.left {e : Env} {files : Bytes → Option Bytes} {a b : List Act} (h : Faithful e files (a ++ b)) : Faithful e files a := by
  intro p hp q hq
  refine h p ?_ q ?_ <;> rw [sources_append] <;> exact List.mem_append.2 (.inl ‹_›)

theorem DocInv.more {e : Env} {files : Bytes → Option Bytes} {a b : List Act} {d : Nat} {doc : Document} (h : DocInv (sources e files a) (uses e files a) d doc) :
    DocInv (sources e files (a ++ b)) (uses e files (a ++ b)) d doc :=
  ⟨fun p hp => (h.named p hp).imp fun k hk => by rw [sources_append]; exact List.mem_append.2 (.inl hk), fun p hp => uses_mono (h.asked p hp), h.nodup⟩

theorem Inv.mono {e : Env} {files : Bytes → Option Bytes} {acts : List Act} {a : Act} {w : World} (h : Inv e files acts w)
    (hf : filesAfter files (acts ++ [a]) = filesAfter files acts) (hh : held e (filesAfter files acts) [a] = []) : Inv e files (acts ++ [a]) w :=
  ⟨by rw [h.fs, hf], by rw [held_append, hh, List.append_nil]; exact h.holders, fun d => (h.docs d).more⟩

/-! ### The calls that draw -/

theorem draw_eq {e : Env} {w : World} {d h : Nat} {sized : Bool} :
    step e w (.draw d h none sized) = ((w.place e .plain sized d h).1, match (w.place e .plain sized d h).2 with
      | none => .err
      | some b => .shows b none) := by
  simp only [step]
  rcases w.place e .plain sized d h with ⟨w1, _ | b⟩ <;> rfl

theorem draw_mask_none {e : Env} {w : World} {d h m : Nat} {z sized : Bool} (hm : (w.place e .mask z d m).2 = none) :
    step e w (.draw d h (some (m, z)) sized) = ((w.place e .mask z d m).1, .err) := by
  simp only [step]
  rcases hp : w.place e .mask z d m with ⟨w1, _ | b⟩
  · rfl
  · rw [hp] at hm; cases hm

theorem draw_mask_some {e : Env} {w : World} {d h m : Nat} {z sized : Bool} {c : Bytes × Kind} (hm : (w.place e .mask z d m).2 = some c) :
    step e w (.draw d h (some (m, z)) sized) = (((w.place e .mask z d m).1.place e .masked sized d h).1, match ((w.place e .mask z d m).1.place e .masked sized d h).2 with
      | none => .err
      | some b => .shows b (some c)) := by
  simp only [step]
  rcases hp : w.place e .mask z d m with ⟨w1, _ | b⟩
  · rw [hp] at hm; cases hm
  · rw [hp] at hm
    obtain rfl := Option.some.inj hm
    simp only
    rcases w1.place e .masked sized d h with ⟨w2, _ | x⟩ <;> rfl

/-- The invariant after a drawing, and what it shows. -/
theorem draw_inv {e : Env} (he : ∀ z, e.accepts z [] = false) {files : Bytes → Option Bytes} {acts : List Act} {w : World} {d h : Nat}
    {mask : Option (Nat × Bool)} {sized : Bool} (hS : Faithful e files (acts ++ [.draw d h mask sized]))
    (hw : Inv e files (acts ++ [.draw d h mask sized]) w) :
    Inv e files (acts ++ [.draw d h mask sized]) (step e w (.draw d h mask sized)).1 ∧
      ∀ b c, (step e w (.draw d h mask sized)).2 = .shows b c →
        (∃ n, (held e files acts)[h]? = some (n, b.1) ∧ (d, n, b.2) ∈ uses e files (acts ++ [.draw d h mask sized])) ∧
          c.isSome = mask.isSome ∧ ∀ x, c = some x → ∀ y, mask = some y →
            ∃ n, (held e files acts)[y.1]? = some (n, x.1) ∧ (d, n, x.2) ∈ uses e files (acts ++ [.draw d h mask sized]) := by
  have hheld : held e files (acts ++ [.draw d h mask sized]) = held e files acts := by
    rw [held_append]; simp [held, sources, named]
  cases mask with
  | none =>
    obtain ⟨h1, h2⟩ := World.place_inv he hS (kind := .plain) (sized := sized) (d := d) (h := h) hw (fun p hp => by
      refine uses_last ?_
      simp [asked, hp])
    rw [draw_eq]
    refine ⟨h1, ?_⟩
    intro b c hb
    split at hb
    · cases hb
    · next x hx =>
      simp only [Out.shows.injEq] at hb
      obtain ⟨rfl, rfl⟩ := hb
      obtain ⟨n, hn, hu⟩ := h2 _ hx
      rw [hheld] at hn
      exact ⟨⟨n, hn, hu⟩, rfl, by simp⟩
  | some m =>
    obtain ⟨m, z⟩ := m
    obtain ⟨h1, h2⟩ := World.place_inv he hS (kind := .mask) (sized := z) (d := d) (h := m) hw (fun p hp => by
      refine uses_last ?_
      simp [asked, hp])
    cases hm : (w.place e .mask z d m).2 with
    | none =>
      rw [draw_mask_none hm]
      exact ⟨h1, by simp⟩
    | some c0 =>
      rw [draw_mask_some hm]
      obtain ⟨h3, h4⟩ := World.place_inv he hS (kind := .masked) (sized := sized) (d := d) (h := h) h1 (fun p hp => by
        refine uses_last ?_
        simp [asked, hp])
      refine ⟨h3, ?_⟩
      intro b c hb
      split at hb
      · cases hb
      · next x hx =>
        simp only [Out.shows.injEq] at hb
        obtain ⟨rfl, rfl⟩ := hb
        obtain ⟨n, hn, hu⟩ := h4 _ hx
        obtain ⟨n', hn', hu'⟩ := h2 _ hm
        rw [hheld] at hn hn'
        refine ⟨⟨n, hn, hu⟩, rfl, ?_⟩
        intro x0 hx0 y hy
        obtain rfl := Option.some.inj hx0
        obtain rfl := Option.some.inj hy
        exact ⟨n', hn', hu'⟩

theorem step_inv {e : Env} (he : ∀ z, e.accepts z [] = false) {files : Bytes → Option Bytes} {acts : List Act} {a : Act} {w : World}
    (hS : Faithful e files (acts ++ [a])) (hw : Inv e files acts w) : Inv e files (acts ++ [a]) (step e w a).1 := by
  have hfw := hw.fs
  cases a with
  | write p b =>
    refine ⟨?_, ?_, fun d => (hw.docs d).more⟩
    · rw [filesAfter_append]; simp [step, filesAfter, hfw]
    · rw [held_append]; simpa [step, held, sources, named] using hw.holders
  | byBytes b =>
    refine ⟨?_, ?_, fun d => (hw.docs d).more⟩
    · rw [filesAfter_append]; simp [step, filesAfter, hfw]
    · rw [held_append]
      refine List.rel_append hw.holders ?_
      simp only [held, sources, named, List.append_nil, List.filterMap_cons, if_true, List.filterMap_nil]
      exact .cons ⟨rfl, .inl rfl⟩ .nil
  | byPath p =>
    have hfa : filesAfter files (acts ++ [.byPath p]) = filesAfter files acts := by rw [filesAfter_append]; rfl
    cases hp : w.files p with
    | none =>
      have : step e w (.byPath p) = (w, .err) := by simp [step, ofPath, hp]
      rw [this]
      exact hw.mono hfa (by rw [← hfw]; simp [held, sources, named, hp])
    | some b =>
      have : step e w (.byPath p) = ({ w with holders := w.holders ++ [⟨p, b⟩] }, .done) := by simp [step, ofPath, hp]
      rw [this]
      refine ⟨by rw [hfa]; exact hfw, ?_, fun d => (hw.docs d).more⟩
      rw [held_append]
      refine List.rel_append hw.holders ?_
      rw [← hfw]
      simp only [held, sources, named, hp, Option.map_some, Option.toList_some, List.append_nil, List.filterMap_cons, if_true, List.filterMap_nil]
      exact .cons ⟨rfl, .inl rfl⟩ .nil
  | draw d h mask sized => exact (draw_inv he hS (hw.mono (by rw [filesAfter_append]; rfl) (by simp [held, sources, named]))).1
  | image d p sized =>
    have hw' : Inv e files (acts ++ [.image d p sized]) w := hw.mono (by rw [filesAfter_append]; rfl) (by
      simp only [held, sources, named, List.append_nil]
      cases filesAfter files acts p <;> simp)
    cases hp : w.files p with
    | none =>
      have : step e w (.image d p sized) = (w, .err) := by simp [step, ofPath, hp]
      rw [this]; exact hw'
    | some b =>
      have : step e w (.image d p sized) = w.once e sized d ⟨p, b⟩ := by simp [step, ofPath, hp]
      rw [this]
      refine (once_inv he hS (k := false) hw' ?_ (uses_last (by simp [asked]))).1
      rw [sources_append]
      refine List.mem_append.2 (.inr ?_)
      rw [← hfw]
      simp [sources, named, hp]
  | imageFrom d b sized =>
    have hw' : Inv e files (acts ++ [.imageFrom d b sized]) w := hw.mono (by rw [filesAfter_append]; rfl) (by
      simp [held, sources, named])
    refine (once_inv he hS (k := false) hw' ?_ (uses_last (by simp [asked]))).1
    rw [sources_append]
    exact List.mem_append.2 (.inr (by simp [sources, named, ofBytes]))
  | start d =>
    have hw' : Inv e files (acts ++ [.start d]) w := hw.mono (by rw [filesAfter_append]; rfl) (by simp [held, sources, named])
    refine ⟨hw'.fs, hw'.holders, fun d' => ?_⟩
    simp only [step]
    by_cases hdd : d' = d
    · subst hdd; rw [Function.update_self]; exact ⟨by simp, by simp, by simp⟩
    · rw [Function.update_of_ne hdd]; exact hw'.docs d'

theorem run_inv {e : Env} (he : ∀ z, e.accepts z [] = false) (files : Bytes → Option Bytes) (acts : List Act) :
    Faithful e files acts → Inv e files acts (run e { files := files } acts) := by
  induction acts using List.reverseRecOn with
  | nil => exact fun _ => ⟨rfl, .nil, fun d => ⟨by simp [run], by simp [run], by simp [run]⟩⟩
  | append_singleton acts a ih =>
    intro hS
    rw [run_append]
    exact step_inv he hS (ih hS.left)

/-! ### A holder that is used in one document -/

/-- The holder still has its data, or the document has the image. -/
def Ready (e : Env) (files : Bytes → Option Bytes) (acts : List Act) (d h : Nat) (w : World) : Prop :=
  ∀ x, w.holders[h]? = some x → (∃ n, (held e files acts)[h]? = some (n, x.unread)) ∨ ∃ p ∈ (w.docs d).images, p.id = x.id

theorem place_keeps {e : Env} {kind : Kind} {sized : Bool} {doc : Document} {h : Holder} {p : Image} (hp : p ∈ doc.images) :
    p ∈ (place e kind sized doc h).2.1.images := by
  unfold place
  split
  · exact hp
  · split
    · exact List.mem_append.2 (.inl hp)
    · exact hp

theorem place_id {e : Env} {kind : Kind} {sized : Bool} {doc : Document} {h : Holder} : (place e kind sized doc h).1.id = h.id := by
  unfold place
  split
  · rfl
  · split <;> rfl

theorem World.place_images {e : Env} {kind : Kind} {sized : Bool} {w : World} {d d' h : Nat} {p : Image} (hp : p ∈ (w.docs d).images) :
    p ∈ ((w.place e kind sized d' h).1.docs d).images := by
  cases hh : w.holders[h]? with
  | none => rw [World.place_none hh]; exact hp
  | some x =>
    rw [World.place_some hh]
    by_cases hdd : d = d'
    · subst hdd; simp only [Function.update_self]; exact place_keeps hp
    · simp only [Function.update_of_ne hdd]; exact hp

/-- Another holder is placed, or this one in its document. -/
theorem World.place_ready {e : Env} {files : Bytes → Option Bytes} {acts : List Act} {kind : Kind} {sized : Bool} {w : World} {d d' h h' : Nat}
    (hw : Ready e files acts d h w) (hok : ∀ n b, (held e files acts)[h]? = some (n, b) → ∀ z, e.accepts z b = true) (hd : h' = h → d' = d) :
    Ready e files acts d h (w.place e kind sized d' h').1 := by
  cases hh : w.holders[h']? with
  | none => rw [World.place_none hh]; exact hw
  | some x =>
    intro y hy
    by_cases hhh : h' = h
    · subst hhh
      obtain rfl := hd rfl
      have hlt : h' < w.holders.length := (List.getElem?_eq_some_iff.1 hh).1
      rw [World.place_some hh] at hy ⊢
      simp only [List.getElem?_set_self hlt, Option.some.injEq] at hy
      subst hy
      refine .inr ?_
      simp only [Function.update_self, place_id]
      rcases hw x hh with ⟨n, hn⟩ | ⟨p, hp, hpx⟩
      · unfold Holder.place
        cases hf : (w.docs d').images.find? (fun q => decide (q.id = x.id)) with
        | some q => exact ⟨q, List.mem_of_find?_eq_some hf, by simpa using List.find?_some hf⟩
        | none =>
          simp only [if_pos (hok _ _ hn sized)]
          exact ⟨_, List.mem_append.2 (.inr (List.mem_singleton.2 rfl)), rfl⟩
      · exact ⟨p, place_keeps hp, hpx⟩
    · have hy' : w.holders[h]? = some y := by
        rw [World.place_some hh] at hy
        simpa [List.getElem?_set_ne hhh] using hy
      rcases hw y hy' with hn | ⟨p, hp, hpx⟩
      · exact .inl hn
      · exact .inr ⟨p, World.place_images hp, hpx⟩

theorem Ready.mono {e : Env} {files : Bytes → Option Bytes} {acts : List Act} {d h : Nat} {w : World} (hw : Ready e files acts d h w) (b : List Act) :
    Ready e files (acts ++ b) d h w := by
  intro x hx
  refine (hw x hx).imp ?_ id
  rintro ⟨n, hn⟩
  refine ⟨n, ?_⟩
  obtain ⟨hlt, -⟩ := List.getElem?_eq_some_iff.1 hn
  rw [held_append, List.getElem?_append_left hlt, hn]

theorem once_images {e : Env} {sized : Bool} {w : World} {d d' : Nat} {h : Holder} {p : Image} (hp : p ∈ (w.docs d).images) :
    p ∈ ((w.once e sized d' h).1.docs d).images := by
  unfold World.once
  by_cases hdd : d = d'
  · subst hdd; simp only [Function.update_self]; exact place_keeps hp
  · simp only [Function.update_of_ne hdd]; exact hp

/-- A new holder has its data. -/
theorem Ready.push {e : Env} {files : Bytes → Option Bytes} {acts : List Act} {a : Act} {d h : Nat} {w : World} {x : Holder} (hi : Inv e files acts w)
    (hw : Ready e files acts d h w) (ha : held e (filesAfter files acts) [a] = [(x.id, x.unread)]) :
    Ready e files (acts ++ [a]) d h { w with holders := w.holders ++ [x] } := by
  intro y hy
  simp only at hy
  by_cases hlt : h < w.holders.length
  · rw [List.getElem?_append_left hlt] at hy
    exact (hw.mono [a]) y hy
  · have hle : w.holders.length ≤ h := by omega
    rw [List.getElem?_append_right hle] at hy
    rw [List.getElem?_singleton] at hy
    split at hy
    · obtain rfl := Option.some.inj hy
      refine .inl ⟨x.id, ?_⟩
      have hlen := hi.holders.length_eq
      rw [held_append, ha, List.getElem?_append_right (by omega), List.getElem?_singleton, if_pos (by omega)]
    · cases hy

theorem step_ready {e : Env} {files : Bytes → Option Bytes} {acts : List Act} {a : Act} {d h : Nat} {w : World} (hi : Inv e files acts w)
    (hw : Ready e files acts d h w) (hok : ∀ n b, (held e files (acts ++ [a]))[h]? = some (n, b) → ∀ z, e.accepts z b = true)
    (hd : ∀ d' h' mask sized, a = .draw d' h' mask sized → touches h a = true → d' = d) (hs : a ≠ .start d) :
    Ready e files (acts ++ [a]) d h (step e w a).1 := by
  have hm := hw.mono [a]
  cases a with
  | write p b => exact hm
  | byBytes b => exact hw.push hi (by simp [held, sources, named, ofBytes])
  | byPath p =>
    cases hp : w.files p with
    | none => simpa [step, ofPath, hp] using hm
    | some b =>
      have : step e w (.byPath p) = ({ w with holders := w.holders ++ [⟨p, b⟩] }, .done) := by simp [step, ofPath, hp]
      rw [this]
      exact hw.push hi (by rw [← hi.fs]; simp [held, sources, named, hp])
  | draw d' h' mask sized =>
    have hd' := hd _ _ _ _ rfl
    cases mask with
    | none =>
      rw [draw_eq]
      exact World.place_ready hm hok fun hh => hd' (by simp [touches, hh])
    | some m =>
      obtain ⟨m, z⟩ := m
      have h1 : Ready e files (acts ++ [.draw d' h' (some (m, z)) sized]) d h (w.place e .mask z d' m).1 :=
        World.place_ready hm hok fun hh => hd' (by simp [touches, hh])
      cases hp : (w.place e .mask z d' m).2 with
      | none => rw [draw_mask_none hp]; exact h1
      | some c =>
        rw [draw_mask_some hp]
        exact World.place_ready h1 hok fun hh => hd' (by simp [touches, hh])
  | image d' p sized =>
    cases hp : w.files p with
    | none => simpa [step, ofPath, hp] using hm
    | some b =>
      have : step e w (.image d' p sized) = w.once e sized d' ⟨p, b⟩ := by simp [step, ofPath, hp]
      rw [this]
      intro x hx
      exact (hm x hx).imp id fun ⟨p, hp, hpx⟩ => ⟨p, once_images hp, hpx⟩
  | imageFrom d' b sized =>
    intro x hx
    exact (hm x hx).imp id fun ⟨p, hp, hpx⟩ => ⟨p, once_images hp, hpx⟩
  | start d' =>
    have hne : d ≠ d' := fun hdd => hs (by rw [hdd])
    intro x hx
    refine (hm x hx).imp id ?_
    simp only [step, Function.update_of_ne hne]
    exact id

/-- The holder, once made, has all its data. -/
def Fresh (e : Env) (files : Bytes → Option Bytes) (acts : List Act) (h : Nat) (w : World) : Prop :=
  ∀ x, w.holders[h]? = some x → ∃ n, (held e files acts)[h]? = some (n, x.unread)

theorem Fresh.mono {e : Env} {files : Bytes → Option Bytes} {acts : List Act} {h : Nat} {w : World} (hw : Fresh e files acts h w) (b : List Act) :
    Fresh e files (acts ++ b) h w := by
  intro x hx
  obtain ⟨n, hn⟩ := hw x hx
  refine ⟨n, ?_⟩
  obtain ⟨hlt, -⟩ := List.getElem?_eq_some_iff.1 hn
  rw [held_append, List.getElem?_append_left hlt, hn]

theorem Fresh.push {e : Env} {files : Bytes → Option Bytes} {acts : List Act} {a : Act} {h : Nat} {w : World} {x : Holder} (hi : Inv e files acts w)
    (hw : Fresh e files acts h w) (ha : held e (filesAfter files acts) [a] = [(x.id, x.unread)]) :
    Fresh e files (acts ++ [a]) h { w with holders := w.holders ++ [x] } := by
  intro y hy
  simp only at hy
  by_cases hlt : h < w.holders.length
  · rw [List.getElem?_append_left hlt] at hy
    exact (hw.mono [a]) y hy
  · have hle : w.holders.length ≤ h := by omega
    rw [List.getElem?_append_right hle] at hy
    rw [List.getElem?_singleton] at hy
    split at hy
    · obtain rfl := Option.some.inj hy
      refine ⟨x.id, ?_⟩
      have hlen := hi.holders.length_eq
      rw [held_append, ha, List.getElem?_append_right (by omega), List.getElem?_singleton, if_pos (by omega)]
    · cases hy

theorem World.place_fresh {e : Env} {files : Bytes → Option Bytes} {acts : List Act} {kind : Kind} {sized : Bool} {w : World} {d' h h' : Nat}
    (hw : Fresh e files acts h w) (hne : h' ≠ h) : Fresh e files acts h (w.place e kind sized d' h').1 := by
  cases hh : w.holders[h']? with
  | none => rw [World.place_none hh]; exact hw
  | some x =>
    intro y hy
    rw [World.place_some hh] at hy
    exact hw y (by simpa [List.getElem?_set_ne hne] using hy)

theorem step_fresh {e : Env} {files : Bytes → Option Bytes} {acts : List Act} {a : Act} {h : Nat} {w : World} (hi : Inv e files acts w)
    (hw : Fresh e files acts h w) (ht : touches h a = false) : Fresh e files (acts ++ [a]) h (step e w a).1 := by
  have hm := hw.mono [a]
  cases a with
  | write p b => exact hm
  | byBytes b => exact hw.push hi (by simp [held, sources, named, ofBytes])
  | byPath p =>
    cases hp : w.files p with
    | none => simpa [step, ofPath, hp] using hm
    | some b =>
      have : step e w (.byPath p) = ({ w with holders := w.holders ++ [⟨p, b⟩] }, .done) := by simp [step, ofPath, hp]
      rw [this]
      exact hw.push hi (by rw [← hi.fs]; simp [held, sources, named, hp])
  | draw d' h' mask sized =>
    simp only [touches, Bool.or_eq_false_iff, beq_eq_false_iff_ne] at ht
    cases mask with
    | none => rw [draw_eq]; exact World.place_fresh hm ht.1
    | some m =>
      obtain ⟨m, z⟩ := m
      have hmh : m ≠ h := by simpa using ht.2
      have h1 : Fresh e files (acts ++ [.draw d' h' (some (m, z)) sized]) h (w.place e .mask z d' m).1 := World.place_fresh hm hmh
      cases hp : (w.place e .mask z d' m).2 with
      | none => rw [draw_mask_none hp]; exact h1
      | some c => rw [draw_mask_some hp]; exact World.place_fresh h1 ht.1
  | image d' p sized =>
    cases hp : w.files p with
    | none => simpa [step, ofPath, hp] using hm
    | some b =>
      have : step e w (.image d' p sized) = w.once e sized d' ⟨p, b⟩ := by simp [step, ofPath, hp]
      rw [this]
      exact hm
  | imageFrom d' b sized => exact hm
  | start d' => exact hm

end Verif.Holder

namespace Verif.Props
open Holder

/-- **C80** Whatever was done before - other holders, other documents, the same holder many times, files written, Start - a drawing
shows the data its holder was made from, and its mask those of the mask's holder.  Required: no name stands for two different data. -/
theorem holder_shows_own {e : Holder.Env} (he : ∀ z, e.accepts z [] = false) {files : Bytes → Option Bytes} {acts : List Act}
    (hS : Faithful e files acts) {d h : Nat} {mask : Option (Nat × Bool)} {sized : Bool} {b : Bytes × Kind} {c : Option (Bytes × Kind)}
    (hd : (Holder.step e (Holder.run e { files := files } acts) (.draw d h mask sized)).2 = .shows b c) :
    (∃ n, (held e files acts)[h]? = some (n, b.1)) ∧ c.isSome = mask.isSome ∧
      ∀ x, c = some x → ∀ y, mask = some y → ∃ n, (held e files acts)[y.1]? = some (n, x.1) := by
  have hw := run_inv he files acts hS
  have hS' : Faithful e files (acts ++ [.draw d h mask sized]) := by
    intro p hp q hq
    rw [sources_append] at hp hq
    simp only [sources, named, List.append_nil] at hp hq
    exact hS p hp q hq
  obtain ⟨⟨n, hn, -⟩, h2, h3⟩ := (draw_inv he hS' (hw.mono (by rw [filesAfter_append]; rfl) (by simp [held, sources, named]))).2 b c hd
  exact ⟨⟨n, hn⟩, h2, fun x hx y hy => (h3 x hx y hy).imp fun _ h => h.1⟩

/-- **C80** ... and, if no picture of a document is used in two ways, it is what was asked for: a picture with its own transparency,
one whose transparency a mask replaces, a mask. -/
theorem holder_shows_kind {e : Holder.Env} (he : ∀ z, e.accepts z [] = false) {files : Bytes → Option Bytes} {acts : List Act} {d h : Nat}
    {mask : Option (Nat × Bool)} {sized : Bool} (hS : Faithful e files (acts ++ [.draw d h mask sized]))
    (hR : OneRole e files (acts ++ [.draw d h mask sized])) {b : Bytes × Kind} {c : Option (Bytes × Kind)}
    (hd : (Holder.step e (Holder.run e { files := files } acts) (.draw d h mask sized)).2 = .shows b c) :
    b.2 = (if mask.isSome then .masked else .plain) ∧ ∀ x, c = some x → x.2 = .mask := by
  have hw := run_inv he files acts hS.left
  obtain ⟨⟨n, hn, hu⟩, h2, h3⟩ := (draw_inv he hS (hw.mono (by rw [filesAfter_append]; rfl) (by simp [held, sources, named]))).2 b c hd
  have hheld : held e files (acts ++ [.draw d h mask sized]) = held e files acts := by
    rw [held_append]; simp [held, sources, named]
  cases mask with
  | none =>
    refine ⟨hR _ hu (d, n, Kind.plain) (uses_last ?_) rfl rfl, ?_⟩
    · simp [asked, hheld, hn]
    · rintro x rfl; simp at h2
  | some m =>
    obtain ⟨m, z⟩ := m
    refine ⟨hR _ hu (d, n, Kind.masked) (uses_last ?_) rfl rfl, ?_⟩
    · simp [asked, hheld, hn]
    · intro x hx
      obtain ⟨n', hn', hu'⟩ := h3 x hx _ rfl
      refine hR _ hu' (d, n', Kind.mask) (uses_last ?_) rfl rfl
      simp only at hn'
      simp [asked, hheld, hn']

/-- **C80** Image shows what the file has at that moment, ImageFrom the image given. -/
theorem image_shows_file {e : Holder.Env} (he : ∀ z, e.accepts z [] = false) {files : Bytes → Option Bytes} {acts : List Act} {d : Nat} {sized : Bool}
    {b : Bytes × Kind} {c : Option (Bytes × Kind)} {x : Bytes} :
    (Faithful e files (acts ++ [.image d x sized]) → (Holder.step e (Holder.run e { files := files } acts) (.image d x sized)).2 = .shows b c →
      filesAfter files acts x = some b.1 ∧ (OneRole e files (acts ++ [.image d x sized]) → b.2 = .plain)) ∧
    (Faithful e files (acts ++ [.imageFrom d x sized]) → (Holder.step e (Holder.run e { files := files } acts) (.imageFrom d x sized)).2 = .shows b c →
      x = b.1 ∧ (OneRole e files (acts ++ [.imageFrom d x sized]) → b.2 = .plain)) := by
  constructor
  · intro hS hd
    have hw := run_inv he files acts hS.left
    have hw' : Inv e files (acts ++ [.image d x sized]) (Holder.run e { files := files } acts) := hw.mono (by rw [filesAfter_append]; rfl) (by
      simp only [held, sources, named, List.append_nil]
      cases filesAfter files acts x <;> simp)
    have hu : (d, x, Kind.plain) ∈ uses e files (acts ++ [.image d x sized]) := uses_last (by simp [asked])
    cases hp : (Holder.run e { files := files } acts).files x with
    | none => simp [Holder.step, ofPath, hp] at hd
    | some b' =>
      have : Holder.step e (Holder.run e { files := files } acts) (.image d x sized) = (Holder.run e { files := files } acts).once e sized d ⟨x, b'⟩ := by
        simp [Holder.step, ofPath, hp]
      rw [this] at hd
      rw [hw.fs] at hp
      have := (once_inv he hS (k := false) hw' (by
        rw [sources_append]
        exact List.mem_append.2 (.inr (by simp [sources, named, hp]))) hu).2 b c hd
      exact ⟨by rw [hp, this.1], fun hR => hR _ this.2.1 _ hu rfl rfl⟩
  · intro hS hd
    have hu : (d, (ofBytes e x).id, Kind.plain) ∈ uses e files (acts ++ [.imageFrom d x sized]) := uses_last (by simp [asked])
    have hw' : Inv e files (acts ++ [.imageFrom d x sized]) (Holder.run e { files := files } acts) :=
      (run_inv he files acts hS.left).mono (by rw [filesAfter_append]; rfl) (by simp [held, sources, named])
    have := (once_inv he hS (k := false) hw' (by
      rw [sources_append]
      exact List.mem_append.2 (.inr (by simp [sources, named, ofBytes]))) hu).2 b c hd
    exact ⟨this.1.symm, fun hR => hR _ this.2.1 _ hu rfl rfl⟩

/-- **C80** A document has no image twice: one image for every name, so one for equal data given as bytes. -/
theorem stored_once {e : Holder.Env} (he : ∀ z, e.accepts z [] = false) {files : Bytes → Option Bytes} {acts : List Act}
    (hS : Faithful e files acts) (d : Nat) : (((Holder.run e { files := files } acts).docs d).images.map (·.id)).Nodup :=
  ((run_inv he files acts hS).docs d).nodup

/-- **C80** A holder whose data can be read may be drawn any number of times, if all its drawings - as a picture or as a mask - are in one
document, and Start of that document is not called between them. -/
theorem holder_works {e : Holder.Env} (he : ∀ z, e.accepts z [] = false) {files : Bytes → Option Bytes} {before since : List Act} {d h : Nat} {n data : Bytes}
    (hS : Faithful e files (before ++ since)) (hh : (held e files (before ++ since))[h]? = some (n, data)) (hok : ∀ z, e.accepts z data = true)
    (hb : ∀ a ∈ before, touches h a = false)
    (hs : ∀ a ∈ since, a ≠ .start d ∧ ∀ d' h' mask sized, a = .draw d' h' mask sized → touches h a = true → d' = d) (sized : Bool) :
    ∃ kind, (Holder.step e (Holder.run e { files := files } (before ++ since)) (.draw d h none sized)).2 = .shows (data, kind) none := by
  have hok' : ∀ rest acts, acts ++ rest = before ++ since → ∀ m b, (held e files acts)[h]? = some (m, b) → ∀ z, e.accepts z b = true := by
    intro rest acts hr m b hm
    obtain ⟨hlt, -⟩ := List.getElem?_eq_some_iff.1 hm
    rw [← hr, held_append, List.getElem?_append_left hlt, hm] at hh
    simp only [Option.some.injEq, Prod.mk.injEq] at hh
    rw [hh.2]; exact hok
  have first : ∀ rest acts, acts ++ rest = before → Fresh e files acts h (Holder.run e { files := files } acts) := by
    intro rest acts
    induction acts using List.reverseRecOn generalizing rest with
    | nil => intro hr x hx; simp [Holder.run] at hx
    | append_singleton acts a ih =>
      intro hr
      have hr' : acts ++ (a :: rest) = before := by simpa using hr
      have hSa : Faithful e files (acts ++ a :: rest) := hr' ▸ hS.left
      rw [run_append]
      exact step_fresh (run_inv he files acts hSa.left) (ih (a :: rest) hr') (hb a (by rw [← hr]; simp))
  have then_ : ∀ rest acts, acts ++ rest = since → Ready e files (before ++ acts) d h (Holder.run e { files := files } (before ++ acts)) := by
    intro rest acts
    induction acts using List.reverseRecOn generalizing rest with
    | nil =>
      intro _ x hx
      rw [List.append_nil] at hx ⊢
      exact .inl (first [] before (by simp) x hx)
    | append_singleton acts a ih =>
      intro hr
      have hr' : acts ++ (a :: rest) = since := by simpa using hr
      have hSa : Faithful e files (before ++ acts ++ a :: rest) := by rw [List.append_assoc, hr']; exact hS
      rw [← List.append_assoc, run_append]
      obtain ⟨hs1, hs2⟩ := hs a (by rw [← hr]; simp)
      exact step_ready (run_inv he files _ hSa.left) (ih (a :: rest) hr') (hok' rest _ (by rw [← hr]; simp)) hs2 hs1
  have hw := run_inv he files (before ++ since) hS
  have hr := then_ [] since (by simp)
  have hlen := hw.holders.length_eq
  obtain ⟨hlt, hget⟩ := List.getElem?_eq_some_iff.1 hh
  obtain ⟨x, hx⟩ : ∃ x, (Holder.run e { files := files } (before ++ since)).holders[h]? = some x :=
    ⟨_, List.getElem?_eq_getElem (by omega)⟩
  obtain ⟨b, hb'⟩ : ∃ b, ((Holder.run e { files := files } (before ++ since)).place e .plain sized d h).2 = some b := by
    rw [World.place_some hx]
    unfold Holder.place
    cases hf : ((Holder.run e { files := files } (before ++ since)).docs d).images.find? (fun q => decide (q.id = x.id)) with
    | some q => exact ⟨_, rfl⟩
    | none =>
      rcases hr x hx with ⟨m, hm⟩ | ⟨p, hp, hpx⟩
      · have : x.unread = data := by rw [hh] at hm; simp_all
        simp only [this, hok, if_true]
        exact ⟨_, rfl⟩
      · exact absurd (List.find?_eq_none.1 hf p hp) (by simp [hpx])
  have hstep : (Holder.step e (Holder.run e { files := files } (before ++ since)) (.draw d h none sized)).2 = .shows b none := by
    rw [draw_eq, hb']
  obtain ⟨⟨m, hm⟩, -, -⟩ := holder_shows_own he hS hstep
  rw [hh] at hm
  obtain ⟨b1, b2⟩ := b
  simp only [Option.some.injEq, Prod.mk.injEq] at hm
  exact ⟨b2, by rw [hstep, hm.2]⟩

end Verif.Props
