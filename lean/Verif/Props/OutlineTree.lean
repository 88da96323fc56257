import Verif.Spec.OutlineTree
import Mathlib.Data.List.Nodup
/- C15: nested bookmarks. -/
namespace Verif.Props
open OutlineTree

private theorem ids_cons (id : Nat) (kids rest : Forest) : (Forest.cons id kids rest).ids = id :: (kids.ids ++ rest.ids) := by
  simp [Forest.ids, Forest.families]

private theorem top_ids (f : Forest) : ∀ a ∈ f.top, a ∈ f.ids := by
  induction f with
  | nil => simp [Forest.top]
  | cons id kids rest _ ih =>
    intro a ha
    simp only [Forest.top, List.mem_cons] at ha
    rw [ids_cons]
    simp only [List.mem_cons, List.mem_append]
    rcases ha with rfl | ha
    · exact Or.inl rfl
    · exact Or.inr (Or.inr (ih a ha))

private theorem head_top (f : Forest) : f.head = f.top.head? := by cases f <;> rfl

private theorem link_at (p : Nat) (prev next : Option Nat) (id : Nat) (h : Heap) (hp : id ≠ p) (a : Nat) :
    linkKid p prev next id h a =
      if a = id then { h id with prev := prev, next := next, parent := p }
      else if a = p then { h p with first := if prev.isNone then some id else (h p).first,
                                    last := if next.isNone then some id else (h p).last }
      else h a := by
  cases prev <;> cases next <;>
    simp only [linkKid, Heap.setParent, Heap.setNext, Heap.setPrev, Heap.setLast, Heap.setFirst, Heap.upd,
      Option.isNone_none, Option.isNone_some, Option.isSome_none, Option.isSome_some, if_true, Bool.false_eq_true, if_false] <;>
    by_cases h1 : a = id <;> by_cases h2 : a = p <;> simp_all

/-- Only the nodes of the forest and the parent are written; of the parent only first and last. -/
private theorem kids_frame (f : Forest) (p : Nat) (prev : Option Nat) (h : Heap) (a : Nat) (hpf : p ∉ f.ids)
    (hn : f.ids.Nodup) (ha : a ∉ f.ids) :
    (a ≠ p → parseKids p prev h f a = h a) ∧
    (parseKids p prev h f a).prev = (h a).prev ∧ (parseKids p prev h f a).next = (h a).next ∧
    (parseKids p prev h f a).parent = (h a).parent := by
  induction f generalizing p prev h with
  | nil => simp [parseKids]
  | cons id kids rest ihk ihr =>
    rw [ids_cons] at ha hpf hn
    simp only [List.mem_cons, List.mem_append, not_or] at ha hpf
    obtain ⟨h1, h2, h3⟩ := ha
    obtain ⟨q1, q2, q3⟩ := hpf
    rw [List.nodup_cons, List.nodup_append, List.mem_append, not_or] at hn
    obtain ⟨⟨n1, n2⟩, n3, n4, n5⟩ := hn
    simp only [parseKids]
    obtain ⟨r1, r2, r3, r4⟩ := ihr p (some id) (parseKids id none (linkKid p prev rest.head id h) kids) q3 n4 h3
    obtain ⟨k1, _, _, _⟩ := ihk id none (linkKid p prev rest.head id h) n1 n3 h2
    have k := k1 h1
    have e := link_at p prev rest.head id h (Ne.symm q1) a
    rw [if_neg h1] at e
    rw [r2, r3, r4, k, e]
    refine ⟨fun hp => ?_, ?_, ?_, ?_⟩
    · rw [r1 hp, k, e, if_neg hp]
    all_goals split <;> first | (next hh => rw [hh]) | rfl

/-- First and last of the parent, and the links of the children. -/
private theorem kids_top (f : Forest) (p : Nat) (prev : Option Nat) (h : Heap) (hpf : p ∉ f.ids) (hn : f.ids.Nodup) :
    (∀ (i a : Nat), f.top[i]? = some a → (parseKids p prev h f a).next = f.top[i + 1]? ∧
      (parseKids p prev h f a).prev = (if i = 0 then prev else f.top[i - 1]?) ∧ (parseKids p prev h f a).parent = p) ∧
    (parseKids p prev h f p).first = (if prev.isNone && !f.top.isEmpty then f.top.head? else (h p).first) ∧
    (parseKids p prev h f p).last = (if f.top.isEmpty then (h p).last else f.top.getLast?) := by
  induction f generalizing prev h with
  | nil => simp [parseKids, Forest.top]
  | cons id kids rest _ ihr =>
    have hpf' := hpf
    have hn' := hn
    rw [ids_cons] at hpf' hn'
    simp only [List.mem_cons, List.mem_append, not_or] at hpf'
    obtain ⟨q1, q2, q3⟩ := hpf'
    rw [List.nodup_cons, List.nodup_append, List.mem_append, not_or] at hn'
    obtain ⟨⟨n1, n2⟩, n3, n4, n5⟩ := hn'
    obtain ⟨i1, i2, i3⟩ := ihr (some id) (parseKids id none (linkKid p prev rest.head id h) kids) q3 n4
    simp only [parseKids]
    have lat := link_at p prev rest.head id h (Ne.symm q1)
    refine ⟨?_, ?_, ?_⟩
    · intro i a hi
      cases i with
      | zero =>
        simp only [Forest.top, List.getElem?_cons_zero, Option.some.injEq] at hi
        subst hi
        obtain ⟨_, r2, r3, r4⟩ := kids_frame rest p (some id) (parseKids id none (linkKid p prev rest.head id h) kids) id q3 n4 n2
        obtain ⟨_, k2, k3, k4⟩ := kids_frame kids id none (linkKid p prev rest.head id h) id n1 n3 n1
        rw [r2, r3, r4, k2, k3, k4, lat, if_pos rfl]
        refine ⟨?_, by simp, rfl⟩
        simp only [Forest.top, List.getElem?_cons_succ]
        rw [head_top, List.head?_eq_getElem?]
      | succ i =>
        simp only [Forest.top, List.getElem?_cons_succ] at hi
        obtain ⟨j1, j2, j3⟩ := i1 i a hi
        refine ⟨by simpa [Forest.top] using j1, ?_, j3⟩
        rw [j2, if_neg (Nat.succ_ne_zero i)]
        cases i with
        | zero => simp [Forest.top]
        | succ i => simp [Forest.top]
    · rw [i2]
      have k := (kids_frame kids id none (linkKid p prev rest.head id h) p n1 n3 q2).1 (by omega)
      simp only [Option.isNone_some, Bool.false_and, Bool.false_eq_true, if_false]
      rw [k, lat, if_neg q1, if_pos rfl]
      cases prev <;> simp [Forest.top]
    · rw [i3]
      have k := (kids_frame kids id none (linkKid p prev rest.head id h) p n1 n3 q2).1 (by omega)
      rw [k, lat, if_neg q1, if_pos rfl]
      simp only [Forest.top, List.isEmpty_cons, Bool.false_eq_true, if_false]
      cases ht : rest.top with
      | nil => rw [head_top, ht]; simp
      | cons x l => simp [List.getLast?_cons_cons]

private theorem family_frame {h h' : Heap} {p : Nat} {l : List Nat} (hf : Family h p l) (h1 : ∀ a, a = p ∨ a ∈ l → h' a = h a) :
    Family h' p l where
  next := fun i a hi => by rw [h1 a (Or.inr (List.mem_of_getElem? hi))]; exact hf.next i a hi
  prev := fun i a hi => by rw [h1 a (Or.inr (List.mem_of_getElem? hi))]; exact hf.prev i a hi
  parent := fun a ha => by rw [h1 a (Or.inr ha)]; exact hf.parent a ha
  first := by rw [h1 p (Or.inl rfl)]; exact hf.first
  last := by rw [h1 p (Or.inl rfl)]; exact hf.last

private theorem families_mem (f : Forest) : ∀ x ∈ f.families, x.1 ∈ f.ids ∧ ∀ a ∈ x.2, a ∈ f.ids := by
  induction f with
  | nil => simp [Forest.families]
  | cons id kids rest ihk ihr =>
    intro x hx
    simp only [Forest.families, List.mem_cons, List.mem_append] at hx
    rw [ids_cons]
    simp only [List.mem_cons, List.mem_append]
    rcases hx with rfl | hx | hx
    · exact ⟨Or.inl rfl, fun a ha => Or.inr (Or.inl (top_ids kids a ha))⟩
    · exact ⟨Or.inr (Or.inl (ihk x hx).1), fun a ha => Or.inr (Or.inl ((ihk x hx).2 a ha))⟩
    · exact ⟨Or.inr (Or.inr (ihr x hx).1), fun a ha => Or.inr (Or.inr ((ihr x hx).2 a ha))⟩

/-- All families below a child list are linked after the run over it. -/
private theorem kids_families (f : Forest) (p : Nat) (prev : Option Nat) (h : Heap) (hpf : p ∉ f.ids) (hn : f.ids.Nodup) :
    ∀ x ∈ f.families, x.2 ≠ [] → Family (parseKids p prev h f) x.1 x.2 := by
  induction f generalizing p prev h with
  | nil => simp [Forest.families]
  | cons id kids rest ihk ihr =>
    have hpf' := hpf
    have hn' := hn
    rw [ids_cons] at hpf' hn'
    simp only [List.mem_cons, List.mem_append, not_or] at hpf'
    obtain ⟨q1, q2, q3⟩ := hpf'
    rw [List.nodup_cons, List.nodup_append, List.mem_append, not_or] at hn'
    obtain ⟨⟨n1, n2⟩, n3, n4, n5⟩ := hn'
    intro x hx hne
    simp only [parseKids]
    simp only [Forest.families, List.mem_cons, List.mem_append] at hx
    have fr := fun a (ha : a ∉ rest.ids) =>
      (kids_frame rest p (some id) (parseKids id none (linkKid p prev rest.head id h) kids) a q3 n4 ha).1
    have kn : ∀ a, a ∈ kids.ids → a ∉ rest.ids := fun a ha hb => n5 a ha a hb rfl
    have kp : ∀ a, a ∈ kids.ids → a ≠ p := fun a ha e => q2 (e ▸ ha)
    rcases hx with rfl | hx | hx
    · obtain ⟨t1, t2, t3⟩ := kids_top kids id none (linkKid p prev rest.head id h) n1 n3
      refine family_frame (h := parseKids id none (linkKid p prev rest.head id h) kids) ⟨?_, ?_, ?_, ?_, ?_⟩ ?_
      · exact fun i a hi => (t1 i a hi).1
      · exact fun i a hi => (t1 i a hi).2.1
      · intro a ha
        obtain ⟨i, hi⟩ := List.mem_iff_getElem?.1 ha
        exact (t1 i a hi).2.2
      · rw [t2]; simp at hne; simp [hne]
      · rw [t3]; simp at hne; simp [hne]
      · rintro a (rfl | ha)
        · exact fr _ n2 (Ne.symm q1)
        · exact fr a (kn a (top_ids kids a ha)) (kp a (top_ids kids a ha))
    · refine family_frame (ihk id none (linkKid p prev rest.head id h) n1 n3 x hx hne) ?_
      have := families_mem kids x hx
      rintro a (rfl | ha)
      · exact fr _ (kn _ this.1) (kp _ this.1)
      · exact fr a (kn a (this.2 a ha)) (kp a (this.2 a ha))
    · exact ihr p (some id) _ q3 n4 x hx hne

private theorem top_frame (f : Forest) (prev : Option Nat) (h : Heap) (hn : f.ids.Nodup) (a : Nat) (ha : a ∉ f.ids) :
    parseTop prev h f a = h a := by
  induction f generalizing prev h with
  | nil => rfl
  | cons id kids rest _ ihr =>
    rw [ids_cons] at ha hn
    simp only [List.mem_cons, List.mem_append, not_or] at ha
    obtain ⟨h1, h2, h3⟩ := ha
    rw [List.nodup_cons, List.nodup_append, List.mem_append, not_or] at hn
    obtain ⟨⟨n1, n2⟩, n3, n4, n5⟩ := hn
    simp only [parseTop]
    rw [ihr _ _ n4 h3, (kids_frame kids id none _ a n1 n3 h2).1 h1]
    cases prev <;> simp [Heap.setNext, Heap.setPrev, Heap.upd, h1]

private theorem top_links (f : Forest) (prev : Option Nat) (h : Heap) (hn : f.ids.Nodup) :
    (∀ (i a : Nat), f.top[i]? = some a → (parseTop prev h f a).next = f.top[i + 1]? ∧
      (parseTop prev h f a).prev = (if i = 0 ∧ prev = none then none else (h a).prev) ∧
      (parseTop prev h f a).parent = (h a).parent) ∧
    ∀ x ∈ f.families, x.2 ≠ [] → Family (parseTop prev h f) x.1 x.2 := by
  induction f generalizing prev h with
  | nil => simp [Forest.top, Forest.families]
  | cons id kids rest _ ihr =>
    have hn' := hn
    rw [ids_cons, List.nodup_cons, List.nodup_append, List.mem_append, not_or] at hn'
    obtain ⟨⟨n1, n2⟩, n3, n4, n5⟩ := hn'
    rw [show parseTop prev h (.cons id kids rest) = parseTop (some id) (parseKids id none
      ((if prev.isNone then h.setPrev id none else h.setNext id prev : Heap).setNext id rest.head) kids) rest from rfl]
    generalize h1e : (if prev.isNone then h.setPrev id none else h.setNext id prev : Heap).setNext id rest.head = h1
    have e1 : ∀ a, a ≠ id → h1 a = h a := by
      intro a ha
      rw [← h1e]
      cases prev <;> simp [Heap.setNext, Heap.setPrev, Heap.upd, ha]
    have e2 : (h1 id).next = rest.head ∧ (h1 id).prev = (if prev = none then none else (h id).prev) ∧
        (h1 id).parent = (h id).parent := by
      rw [← h1e]
      cases prev <;> simp [Heap.setNext, Heap.setPrev, Heap.upd]
    obtain ⟨i1, i2⟩ := ihr (some id) (parseKids id none h1 kids) n4
    have kn : ∀ a, a ∈ kids.ids → a ∉ rest.ids := fun a ha hb => n5 a ha a hb rfl
    have fr := fun a (ha : a ∉ rest.ids) => top_frame rest (some id) (parseKids id none h1 kids) n4 a ha
    refine ⟨?_, ?_⟩
    · intro i a hi
      cases i with
      | zero =>
        simp only [Forest.top, List.getElem?_cons_zero, Option.some.injEq] at hi
        subst hi
        obtain ⟨_, k2, k3, k4⟩ := kids_frame kids id none h1 id n1 n3 n1
        rw [fr _ n2, k2, k3, k4, e2.1, e2.2.1, e2.2.2]
        refine ⟨?_, by simp, rfl⟩
        simp only [Forest.top, List.getElem?_cons_succ]
        rw [head_top, List.head?_eq_getElem?]
      | succ i =>
        simp only [Forest.top, List.getElem?_cons_succ] at hi
        obtain ⟨j1, j2, j3⟩ := i1 i a hi
        have hat := top_ids rest a (List.mem_of_getElem? hi)
        have hai : a ≠ id := fun e => n2 (e ▸ hat)
        have hak : a ∉ kids.ids := fun hk => kn a hk hat
        have k := (kids_frame kids id none h1 a n1 n3 hak).1 hai
        rw [k, e1 a hai] at j2 j3
        refine ⟨by simpa [Forest.top] using j1, ?_, j3⟩
        rw [j2]; simp
    · intro x hx hne
      simp only [Forest.families, List.mem_cons, List.mem_append] at hx
      rcases hx with rfl | hx | hx
      · obtain ⟨t1, t2, t3⟩ := kids_top kids id none h1 n1 n3
        refine family_frame (h := parseKids id none h1 kids) ⟨?_, ?_, ?_, ?_, ?_⟩ ?_
        · exact fun i a hi => (t1 i a hi).1
        · exact fun i a hi => (t1 i a hi).2.1
        · intro a ha
          obtain ⟨i, hi⟩ := List.mem_iff_getElem?.1 ha
          exact (t1 i a hi).2.2
        · rw [t2]; simp at hne; simp [hne]
        · rw [t3]; simp at hne; simp [hne]
        · rintro a (rfl | ha)
          · exact fr _ n2
          · exact fr a (kn a (top_ids kids a ha))
      · refine family_frame (kids_families kids id none h1 n1 n3 x hx hne) ?_
        have := families_mem kids x hx
        rintro a (rfl | ha)
        · exact fr _ (kn _ this.1)
        · exact fr a (kn a (this.2 a ha))
      · exact i2 x hx hne

/-- **C15** After OutlineNodes.Parse every node that has children has them linked as a viewer expects, at every depth and
whatever the links were before: /Next and /Prev of each child are its neighbours, /Parent is the node, and the node's
/First and /Last are the ends of the list. For every tree in which no bookmark occurs twice. -/
theorem children_linked (f : Forest) (h : Heap) (hn : f.ids.Nodup) :
    ∀ x ∈ f.families, x.2 ≠ [] → Family (parseTop none h f) x.1 x.2 := (top_links f none h hn).2

/-- **C15** The top level: every /Next is the next node, the first node has no /Prev; but /Prev of the other nodes and
/Parent of all keep the values they had before the call (the full claim needs /Prev to be set to the previous node;
outlines_obj.go 183 calls SetNext instead). -/
theorem top_level_links (f : Forest) (h : Heap) (hn : f.ids.Nodup) (i a : Nat) (ha : f.top[i]? = some a) :
    (parseTop none h f a).next = f.top[i + 1]? ∧
    (parseTop none h f a).prev = (if i = 0 then none else (h a).prev) ∧
    (parseTop none h f a).parent = (h a).parent := by
  have := (top_links f none h hn).1 i a ha
  simpa using this

/-- **C15** No other bookmark is touched. -/
theorem parse_frame (f : Forest) (h : Heap) (hn : f.ids.Nodup) (a : Nat) (ha : a ∉ f.ids) :
    parseTop none h f a = h a := top_frame f none h hn a ha

private theorem added_at {ids : List Nat} (hn : ids.Nodup) {k a : Nat} (h : ids[k]? = some a) :
    added ids a = { parent := 2, prev := if k = 0 then none else ids[k - 1]?, next := ids[k + 1]? } := by
  obtain ⟨hk, rfl⟩ := List.getElem?_eq_some_iff.1 h
  have : ids.idxOf? ids[k] = some k := by
    rw [List.idxOf?_eq_some_iff]
    refine ⟨hk, rfl, fun j hj he => ?_⟩
    have := (List.Nodup.getElem_inj_iff hn).1 he
    omega
  simp only [added, this]

/-- **C15** Before Parse the bookmarks are linked in the order in which they were added. -/
theorem added_linked (ids : List Nat) (hn : ids.Nodup) : NextOK (added ids) ids ∧ PrevOK (added ids) ids := by
  constructor <;> intro i a hi <;> rw [added_at hn hi]

/-- **C15** Exactly when the top level is linked as a viewer expects: when each node of it was added directly after the
node before it, with no other bookmark in between. -/
theorem top_level_iff (f : Forest) (ids : List Nat) (hn : f.ids.Nodup) (hids : ids.Nodup) (hall : ∀ a ∈ f.top, a ∈ ids) :
    (NextOK (parseTop none (added ids) f) f.top ∧ PrevOK (parseTop none (added ids) f) f.top) ↔
      ∀ i a b, f.top[i]? = some a → f.top[i + 1]? = some b → ∃ k : Nat, ids[k]? = some a ∧ ids[k + 1]? = some b := by
  have key := top_level_links f (added ids) hn
  constructor
  · rintro ⟨-, hp⟩ i a b ha hb
    have h1 := hp (i + 1) b hb
    rw [(key (i + 1) b hb).2.1] at h1
    obtain ⟨k, hk⟩ := List.mem_iff_getElem?.1 (hall b (List.mem_of_getElem? hb))
    rw [added_at hids hk] at h1
    simp only [Nat.add_eq_zero_iff, Nat.one_ne_zero, and_false, if_false, Nat.add_sub_cancel, ha] at h1
    by_cases h0 : k = 0
    · simp [h0] at h1
    · rw [if_neg h0] at h1
      refine ⟨k - 1, h1, ?_⟩
      rw [Nat.sub_add_cancel (Nat.pos_of_ne_zero h0)]; exact hk
  · intro h
    refine ⟨fun i a ha => (key i a ha).1, fun i a ha => ?_⟩
    rw [(key i a ha).2.1]
    by_cases h0 : i = 0
    · simp [h0]
    · rw [if_neg h0, if_neg h0]
      obtain ⟨j, rfl⟩ := Nat.exists_eq_succ_of_ne_zero h0
      have hlt : j < f.top.length := by
        have := (List.getElem?_eq_some_iff.1 ha).1; omega
      obtain ⟨k, k1, k2⟩ := h j f.top[j] a (List.getElem?_eq_getElem hlt) ha
      rw [added_at hids k2]
      simp only [Nat.add_eq_zero_iff, Nat.one_ne_zero, and_false, if_false, Nat.add_sub_cancel, Nat.succ_eq_add_one, k1]
      rw [List.getElem?_eq_getElem hlt]

/-- **C15** The top level fails for a plain two-chapter tree: chapter 5 with section 6, chapter 7, added in this order.
After Parse /Prev of chapter 7 is section 6, although /Next of chapter 5 is chapter 7. -/
theorem top_level_prev_fails :
    let f : Forest := .cons 5 (.cons 6 .nil .nil) (.cons 7 .nil .nil)
    f.ids.Nodup ∧ f.top = [5, 7] ∧ ((parseTop none (added [5, 6, 7]) f) 5).next = some 7 ∧
    ((parseTop none (added [5, 6, 7]) f) 7).prev = some 6 := by
  decide +kernel

/-- Chapters added first, then their sections: linked on every level. -/
example : let f : Forest := .cons 5 (.cons 6 .nil .nil) (.cons 7 .nil .nil)
    f.ids.Nodup ∧ [5, 7, 6].Nodup ∧ (∀ a ∈ f.top, a ∈ [5, 7, 6]) ∧ ([5, 7, 6] : List Nat)[0]? = some 5 ∧
    ([5, 7, 6] : List Nat)[0 + 1]? = some 7 := by decide +kernel

example : let f : Forest := .cons 5 (.cons 6 (.cons 9 .nil .nil) (.cons 8 .nil .nil)) (.cons 7 .nil .nil)
    f.ids.Nodup ∧ f.families = [(5, [6, 8]), (6, [9]), (9, []), (8, []), (7, [])] := by decide +kernel

end Verif.Props
