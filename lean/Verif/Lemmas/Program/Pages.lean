import Verif.Lemmas.Content.Nest
import Verif.Model.Program
import Verif.Spec.DocPages
/- A program as a history of document operations and a history of drawing calls, and how their pages correspond. -/
namespace Verif.Program
open Doc (Outcome outcomes exec drawn addToLast)

/-- A successful call: its document operation with its outcome, and its drawing call. -/
inductive Made (e : Content.Env) (s : St) (c : Call) (s' : St) : Prop where
  | pen (h1 : docOp s.next c = some none) (k : Content.Call) (h2 : contentCall s.doc { tag := 0 } c = some k) (h3 : s'.doc = s.doc)
      (h4 : Content.step e s.content k = some s'.content) (h5 : s'.next = s.next + 1)
  | err (op : Doc.Op) (h1 : docOp s.next c = some (some op)) (h2 : Doc.step s.doc op = (s'.doc, .err)) (h3 : s'.content = s.content)
      (h5 : s'.next = s.next + 1)
  | quiet (op : Doc.Op) (h1 : docOp s.next c = some (some op)) (h2 : Doc.step s.doc op = (s'.doc, .ok))
      (h3 : contentCall s'.doc (s'.doc.lastEntry.getD { tag := 0 }) c = none) (h4 : s'.content = s.content) (h5 : s'.next = s.next + 1)
  | both (op : Doc.Op) (h1 : docOp s.next c = some (some op)) (h2 : Doc.step s.doc op = (s'.doc, .ok)) (k : Content.Call)
      (h3 : contentCall s'.doc (s'.doc.lastEntry.getD { tag := 0 }) c = some k) (h4 : Content.step e s.content k = some s'.content)
      (h5 : s'.next = s.next + 1)

theorem step_made {e : Content.Env} {s s' : St} {c : Call} (h : step e s c = some s') : Made e s c s' := by
  unfold step at h
  split at h
  · exact absurd h (by simp)
  · next h1 =>
    obtain ⟨t, h2, rfl⟩ := Option.map_eq_some_iff.1 h
    obtain ⟨k, h3, h4⟩ := Option.bind_eq_some_iff.1 h2
    exact .pen h1 k h3 rfl h4 rfl
  · next op h1 =>
    split at h
    · exact absurd h (by simp)
    · next d h2 =>
      obtain rfl := Option.some.inj h
      exact .err op h1 h2 rfl rfl
    · next d h2 =>
      split at h
      · next h3 =>
        obtain rfl := Option.some.inj h
        exact .quiet op h1 h2 h3 rfl rfl
      · next k h3 =>
        obtain ⟨t, h4, rfl⟩ := Option.map_eq_some_iff.1 h
        exact .both op h1 h2 k h3 h4 rfl

theorem steps_cons {e : Content.Env} {s s' : St} {c : Call} {rest : List Call} (h : steps e s (c :: rest) = some s') :
    ∃ s1, step e s c = some s1 ∧ steps e s1 rest = some s' := by
  simp only [steps] at h
  exact Option.bind_eq_some_iff.1 h

/-- The document of a program is the one its document operations make. -/
theorem steps_doc {e : Content.Env} : ∀ (prog : List Call) (s s' : St), steps e s prog = some s' →
    s'.doc = exec s.doc (docOps s.next prog) ∧ s'.next = s.next + prog.length
  | [], s, s', h => by
    obtain rfl : s = s' := by simpa [steps] using h
    simp [docOps, exec]
  | c :: prog, s, s', h => by
    obtain ⟨s1, h1, h2⟩ := steps_cons h
    obtain ⟨q1, q2⟩ := steps_doc prog s1 s' h2
    have hm := step_made h1
    simp only [docOps, List.length_cons]
    cases hm with
    | pen a1 k a2 a3 a4 a5 => rw [a1]; rw [a5] at q1 q2; exact ⟨by simpa [a3] using q1, by omega⟩
    | err op a1 a2 a3 a5 => rw [a1]; rw [a5] at q1 q2; exact ⟨by simpa [exec, a2] using q1, by omega⟩
    | quiet op a1 a2 a3 a4 a5 => rw [a1]; rw [a5] at q1 q2; exact ⟨by simpa [exec, a2] using q1, by omega⟩
    | both op a1 a2 k a3 a4 a5 => rw [a1]; rw [a5] at q1 q2; exact ⟨by simpa [exec, a2] using q1, by omega⟩

/-- The content of a program is the one its drawing calls make. -/
theorem steps_content {e : Content.Env} : ∀ (prog : List Call) (s s' : St), steps e s prog = some s' →
    Content.steps e s.content (drawCalls e s prog) = some s'.content
  | [], s, s', h => by
    obtain rfl : s = s' := by simpa [steps] using h
    simp [drawCalls, Content.steps]
  | c :: prog, s, s', h => by
    obtain ⟨s1, h1, h2⟩ := steps_cons h
    have ih := steps_content prog s1 s' h2
    have hm := step_made h1
    simp only [drawCalls, h1]
    cases hm with
    | pen a1 k a2 a3 a4 a5 => rw [a1]; simp only [a2, Option.toList, List.singleton_append, Content.steps, a4, Option.bind_some]; exact ih
    | err op a1 a2 a3 a5 => rw [a1]; simp only [a2, List.nil_append]; rw [← a3]; exact ih
    | quiet op a1 a2 a3 a4 a5 => rw [a1]; simp only [a2, a3, Option.toList, List.nil_append]; rw [← a4]; exact ih
    | both op a1 a2 k a3 a4 a5 =>
      rw [a1]; simp only [a2, a3, Option.toList, List.singleton_append, Content.steps, a4, Option.bind_some]; exact ih

/-- Programs have neither SetPage nor compile. -/
theorem docOp_plain {n : Nat} {c : Call} {op : Doc.Op} (h : docOp n c = some (some op)) : op ≠ .compile ∧ ∀ k, op ≠ .setPage k := by
  cases c with
  | object o =>
    simp only [docOp] at h
    split at h
    · next ho => simp only [Option.some.injEq] at h; subst h; cases o <;> simp [objectOp] at ho ⊢
    · simp at h
  | plain k =>
    simp only [docOp, Option.map_eq_some_iff] at h
    obtain ⟨b, _, b', _, rfl⟩ := h
    simp
  | _ => simp only [docOp, Option.some.injEq] at h; subst h; simp

theorem docOps_plain : ∀ (prog : List Call) (n : Nat), Doc.Op.compile ∉ docOps n prog ∧ ∀ k, Doc.Op.setPage k ∉ docOps n prog
  | [], n => by simp [docOps]
  | c :: prog, n => by
    obtain ⟨h1, h2⟩ := docOps_plain prog (n + 1)
    simp only [docOps, List.mem_append, h1, h2, or_false]
    cases hd : docOp n c with
    | none => simp
    | some o =>
      cases o with
      | none => simp
      | some op =>
        obtain ⟨q1, q2⟩ := docOp_plain hd
        simp [Ne.symm q1, fun k => Ne.symm (q2 k)]

/-! ### Pages -/

theorem pagesBefore_eq (prog : List Call) (n : Nat) : pagesBefore prog n = (prog.take (n - 1)).countP isPage := rfl

/-- What the two halves of the state say about the pages after the calls `pre`; `ps`: what was drawn, by tag. -/
structure Pages (pre : List Call) (s : St) (ps : List (List Nat)) : Prop where
  next : s.next = pre.length + 1
  count : pre.countP isPage = ps.length
  len : s.content.pages.length = ps.length + 1
  cur : s.content.page = ps.length
  tags : ∀ (k : Nat) l, ps[k]? = some l → ∀ t ∈ l, pagesBefore pre t = k + 1 ∧ 0 < t ∧ t ≤ pre.length
  empty : ∀ k : Nat, ps[k]? = some [] → s.content.pages.getD (k + 1) [] = []

theorem pages_start (prot : Bool) (ml mt : ℚ) : Pages [] (start prot ml mt) [] where
  next := rfl
  count := rfl
  len := rfl
  cur := rfl
  tags := by simp
  empty := by simp

theorem before_snoc {pre : List Call} {c : Call} {t : Nat} (h : t ≤ pre.length) : pagesBefore (pre ++ [c]) t = pagesBefore pre t := by
  rw [pagesBefore_eq, pagesBefore_eq, List.take_append_of_le_length (by omega)]

theorem addToLast_length (t : Nat) (ps : List (List Nat)) : (addToLast t ps).length = ps.length := by
  induction ps with
  | nil => rfl
  | cons l ps ih => cases ps <;> simp_all [addToLast]

theorem addToLast_get (t : Nat) : ∀ (ps : List (List Nat)) (k : Nat), (addToLast t ps)[k]? =
    if k + 1 = ps.length then (ps[k]?).map (· ++ [t]) else ps[k]?
  | [], k => by simp [addToLast]
  | [l], k => by cases k <;> simp [addToLast]
  | l :: m :: ps, k => by
    simp only [addToLast]
    cases k with
    | zero => simp
    | succ k => simp [addToLast_get t (m :: ps) k]

/-- A step that leaves the pages alone. -/
theorem Pages.same {pre : List Call} {s s' : St} {ps : List (List Nat)} (h : Pages pre s ps) {c : Call} (hc : isPage c = false)
    (hn : s'.next = s.next + 1) (hp : s'.content.pages = s.content.pages) (hq : s'.content.page = s.content.page) :
    Pages (pre ++ [c]) s' ps where
  next := by rw [hn, h.next]; simp
  count := by simp [h.count, hc]
  len := by rw [hp, h.len]
  cur := by rw [hq, h.cur]
  tags := fun k l hl t ht => by
    obtain ⟨a, b, d⟩ := h.tags k l hl t ht
    exact ⟨by rw [before_snoc d]; exact a, b, by simp; omega⟩
  empty := fun k hk => by rw [hp]; exact h.empty k hk

/-- A step that draws. -/
theorem Pages.draw {pre : List Call} {s s' : St} {ps : List (List Nat)} (h : Pages pre s ps) {c : Call} (hc : isPage c = false)
    (hn : s'.next = s.next + 1) {items : List Content.Item} (hp : s'.content.pages = s.content.pages.set s.content.page items)
    (hq : s'.content.page = s.content.page) : Pages (pre ++ [c]) s' (addToLast s.next ps) where
  next := by rw [hn, h.next]; simp
  count := by simp [h.count, hc, addToLast_length]
  len := by rw [hp, List.length_set, h.len, addToLast_length]
  cur := by rw [hq, h.cur, addToLast_length]
  tags := fun k l hl t ht => by
    rw [addToLast_get] at hl
    have old : ∀ l', ps[k]? = some l' → t ∈ l' → pagesBefore (pre ++ [c]) t = k + 1 ∧ 0 < t ∧ t ≤ (pre ++ [c]).length := by
      intro l' hl' ht'
      obtain ⟨a, b, d⟩ := h.tags k l' hl' t ht'
      exact ⟨by rw [before_snoc d]; exact a, b, by simp; omega⟩
    split at hl
    · next hk =>
      obtain ⟨l', h1, rfl⟩ := Option.map_eq_some_iff.1 hl
      rcases List.mem_append.1 ht with ht | ht
      · exact old l' h1 ht
      · rw [List.mem_singleton] at ht
        subst ht
        rw [h.next]
        refine ⟨?_, by omega, by simp⟩
        rw [pagesBefore_eq]
        simp [h.count, hk]
    · exact old l hl ht
  empty := fun k hk => by
    rw [addToLast_get] at hk
    split at hk
    · next hk' =>
      obtain ⟨l', h1, h2⟩ := Option.map_eq_some_iff.1 hk
      simp at h2
    · next hk' =>
      rw [hp, h.cur, List.getD_eq_getElem?_getD, List.getElem?_set_ne (by omega), ← List.getD_eq_getElem?_getD]
      exact h.empty k hk

/-- AddPage. -/
theorem Pages.page {pre : List Call} {s s' : St} {ps : List (List Nat)} (h : Pages pre s ps) {c : Call} (hc : isPage c = true)
    (hn : s'.next = s.next + 1) (hp : s'.content.pages = s.content.pages ++ [[]]) (hq : s'.content.page = s.content.pages.length) :
    Pages (pre ++ [c]) s' (ps ++ [[]]) where
  next := by rw [hn, h.next]; simp
  count := by simp [h.count, hc]
  len := by rw [hp]; simp [h.len]
  cur := by rw [hq, h.len]; simp
  tags := fun k l hl t ht => by
    have old : ∀ l', ps[k]? = some l' → t ∈ l' → pagesBefore (pre ++ [c]) t = k + 1 ∧ 0 < t ∧ t ≤ (pre ++ [c]).length := by
      intro l' hl' ht'
      obtain ⟨a, b, d⟩ := h.tags k l' hl' t ht'
      exact ⟨by rw [before_snoc d]; exact a, b, by simp; omega⟩
    rw [List.getElem?_append] at hl
    split at hl
    · exact old l hl ht
    · have := List.mem_of_getElem? hl
      simp at this
      subst this
      simp at ht
  empty := fun k hk => by
    rw [hp, List.getD_eq_getElem?_getD, List.getElem?_append]
    rw [List.getElem?_append] at hk
    split at hk
    · next h1 =>
      rw [if_pos (by rw [h.len]; omega), ← List.getD_eq_getElem?_getD]
      exact h.empty k hk
    · next h1 =>
      rw [if_neg (by rw [h.len]; omega)]
      cases hx : ([[]] : List (List Content.Item))[k + 1 - s.content.pages.length]? with
      | none => rfl
      | some x => have := List.mem_of_getElem? hx; simp at this; simp [this]

theorem drawn_append (ps : List (List Nat)) (a b : List (Doc.Op × Outcome)) : drawn ps (a ++ b) = drawn (drawn ps a) b := by
  induction a generalizing ps with
  | nil => rfl
  | cons x a ih =>
    obtain ⟨op, o⟩ := x
    cases op <;> cases o <;> simp [drawn, ih]

/-- Content calls other than AddPage and SetPage. -/
theorem content_other {e : Content.Env} {s s' : Content.St} {k : Content.Call} (h : Content.step e s k = some s')
    (ha : ∀ x, k ≠ .addPage x) (hs : ∀ n, k ≠ .setPage n) : s'.page = s.page ∧ ∃ items, s'.pages = s.pages.set s.page items := by
  cases Content.step_effect h with
  | addPage x => exact absurd rfl (ha x)
  | setPage n => exact absurd rfl (hs n)
  | other c _ _ hc items hp _ _ => exact ⟨hc, items, hp⟩

/-- The document operation of a call that draws carries the call's number. -/
theorem docOp_tag {n t : Nat} {c : Call} {op : Doc.Op} (h : docOp n c = some (some op)) (ht : op.tag? = some t) : t = n := by
  cases c with
  | object o =>
    simp only [docOp] at h
    split at h
    · next ho => simp only [Option.some.injEq] at h; subst h; cases o <;> simp [objectOp] at ho <;> simp [Doc.Op.tag?] at ht
    · simp at h
  | plain k =>
    simp only [docOp, Option.map_eq_some_iff] at h
    obtain ⟨b, _, b', _, rfl⟩ := h
    simpa [Doc.Op.tag?] using ht.symm
  | _ => simp only [docOp, Option.some.injEq] at h; subst h; simp [Doc.Op.tag?] at ht <;> omega

theorem drawn_one_ok (ps : List (List Nat)) (op : Doc.Op) (hp : op ≠ .addPage) :
    drawn ps [(op, .ok)] = match op.tag? with | some t => addToLast t ps | none => ps := by
  cases op <;> first | exact absurd rfl hp | rfl

theorem drawn_one_err (ps : List (List Nat)) (op : Doc.Op) (hp : op ≠ .addPage) : drawn ps [(op, .err)] = ps := by
  cases op <;> first | exact absurd rfl hp | rfl

/-- The content call of a call that neither draws nor adds a page leaves the pages alone. -/
theorem content_keeps {e : Content.Env} {n : Nat} {c : Call} {o : Option Doc.Op} (h : docOp n c = some o) (hc : isPage c = false)
    (ht : ∀ op, o = some op → op.tag? = none) {d : Doc.Doc} {en : Doc.Entry} {k : Content.Call} (hk : contentCall d en c = some k)
    {s s' : Content.St} (hs : Content.step e s k = some s') : s'.pages = s.pages ∧ s'.page = s.page := by
  cases c with
  | object o => simp [contentCall] at hk
  | plain x =>
    simp only [docOp, Option.map_eq_some_iff] at h
    obtain ⟨b, hb, rfl⟩ := h
    simp only [contentCall, Option.some.injEq] at hk
    subst hk
    cases b with
    | some b => exact absurd (ht _ rfl) (by simp [Doc.Op.tag?])
    | none =>
      cases x <;> simp [plainCall] at hb <;> simp only [Content.step, Option.some.injEq] at hs <;> subst hs <;> exact ⟨rfl, rfl⟩
  | addPage x => simp [isPage] at hc
  | setFont f st size =>
    simp only [contentCall, Option.some.injEq] at hk; subst hk
    simp only [Content.step, Option.some.injEq] at hs; subst hs; exact ⟨rfl, rfl⟩
  | setTransparency t =>
    simp only [contentCall, Option.some.injEq] at hk; subst hk
    simp only [Content.step, Option.some.injEq] at hs; subst hs; exact ⟨rfl, rfl⟩
  | clearTransparency =>
    simp only [contentCall, Option.some.injEq] at hk; subst hk
    simp only [Content.step, Option.some.injEq] at hs; subst hs; exact ⟨rfl, rfl⟩
  | _ =>
    simp only [docOp, Option.some.injEq] at h
    subst h
    exact absurd (ht _ rfl) (by simp [Doc.Op.tag?])

/-- Only AddPage draws `.addPage`, and nothing draws `.setPage`. -/
theorem contentCall_other {n : Nat} {c : Call} {o : Option Doc.Op} (h : docOp n c = some o) (hc : isPage c = false) {d : Doc.Doc}
    {en : Doc.Entry} {k : Content.Call} (hk : contentCall d en c = some k) : (∀ x, k ≠ .addPage x) ∧ ∀ m, k ≠ .setPage m := by
  cases c with
  | object o => simp [contentCall] at hk
  | plain x =>
    simp only [docOp, Option.map_eq_some_iff] at h
    obtain ⟨b, hb, rfl⟩ := h
    simp only [contentCall, Option.some.injEq] at hk
    subst hk
    cases x <;> simp [plainCall] at hb ⊢
  | addPage x => simp [isPage] at hc
  | setColourSpace nm => simp only [contentCall, Option.map_eq_some_iff] at hk; obtain ⟨_, _, rfl⟩ := hk; simp
  | image a b => simp only [contentCall, Option.map_eq_some_iff] at hk; obtain ⟨_, _, rfl⟩ := hk; simp
  | imageOpt a b c d => simp only [contentCall, Option.map_eq_some_iff] at hk; obtain ⟨_, _, rfl⟩ := hk; simp
  | _ => simp only [contentCall, Option.some.injEq] at hk; subst hk; simp

theorem docOp_page {n : Nat} {c : Call} (h : docOp n c = some (some .addPage)) : isPage c = true := by
  cases c with
  | object o =>
    simp only [docOp] at h
    split at h
    · next ho => simp only [Option.some.injEq] at h; subst h; simp [objectOp] at ho
    · simp at h
  | plain k =>
    simp only [docOp, Option.map_eq_some_iff] at h
    obtain ⟨b, _, b', _, h⟩ := h
    simp at h
  | addPage x => rfl
  | _ => simp [docOp] at h

/-- The operation and outcome of one call. -/
def trace (s : St) (c : Call) : List (Doc.Op × Outcome) := match docOp s.next c with
  | some (some op) => [(op, (Doc.step s.doc op).2)]
  | _ => []

theorem Pages.step {e : Content.Env} {pre : List Call} {s s' : St} {ps : List (List Nat)} (h : Pages pre s ps) {c : Call}
    (hs : step e s c = some s') : Pages (pre ++ [c]) s' (drawn ps (trace s c)) := by
  unfold trace
  by_cases hp : isPage c = true
  · cases c <;> simp [isPage] at hp
    next x =>
    cases step_made hs with
    | pen a1 => simp [docOp] at a1
    | err op a1 a2 => simp only [docOp, Option.some.injEq] at a1; subst a1; simp [Doc.step] at a2
    | quiet op a1 a2 a3 => simp [contentCall] at a3
    | both op a1 a2 k a3 a4 a5 =>
      simp only [docOp, Option.some.injEq] at a1; subst a1
      simp only [contentCall, Option.some.injEq] at a3; subst a3
      simp only [docOp, drawn]
      cases Content.step_effect a4 with
      | addPage _ hp hc => exact h.page rfl a5 hp hc
      | other _ ha => exact absurd rfl (ha x)
  · have hp : isPage c = false := by simpa using hp
    cases step_made hs with
    | pen a1 k a2 a3 a4 a5 =>
      rw [a1]
      obtain ⟨q1, q2⟩ := content_keeps a1 hp (by simp) a2 a4
      exact h.same hp a5 q1 q2
    | err op a1 a2 a3 a5 =>
      have hno : op ≠ .addPage := by rintro rfl; rw [docOp_page a1] at hp; simp at hp
      rw [a1]; simp only [a2]
      rw [drawn_one_err _ _ hno]
      exact h.same hp a5 (by rw [a3]) (by rw [a3])
    | quiet op a1 a2 a3 a4 a5 =>
      have hno : op ≠ .addPage := by rintro rfl; rw [docOp_page a1] at hp; simp at hp
      rw [a1]; simp only [a2]
      rw [drawn_one_ok _ _ hno]
      cases ht : op.tag? with
      | none => exact h.same hp a5 (by rw [a4]) (by rw [a4])
      | some t =>
        obtain rfl := docOp_tag a1 ht
        exact h.draw hp a5 (items := s.content.pages.getD s.content.page []) (by rw [a4, Content.set_getD_self]) (by rw [a4])
    | both op a1 a2 k a3 a4 a5 =>
      have hno : op ≠ .addPage := by rintro rfl; rw [docOp_page a1] at hp; simp at hp
      rw [a1]; simp only [a2]
      rw [drawn_one_ok _ _ hno]
      cases ht : op.tag? with
      | none =>
        obtain ⟨q1, q2⟩ := content_keeps a1 hp (by intro op' h'; simp only [Option.some.injEq] at h'; rw [← h', ht]) a3 a4
        exact h.same hp a5 q1 q2
      | some t =>
        obtain rfl := docOp_tag a1 ht
        obtain ⟨b1, b2⟩ := contentCall_other a1 hp a3
        obtain ⟨q1, items, q2⟩ := content_other a4 b1 b2
        exact h.draw hp a5 q2 q1

theorem Pages.steps {e : Content.Env} : ∀ (prog pre : List Call) (s s' : St) (ps : List (List Nat)), Pages pre s ps →
    steps e s prog = some s' →
    Pages (pre ++ prog) s' (drawn ps ((docOps s.next prog).zip (outcomes s.doc (docOps s.next prog))))
  | [], pre, s, s', ps, h, hs => by
    obtain rfl : s = s' := by simpa [Program.steps] using hs
    simpa [docOps, drawn] using h
  | c :: prog, pre, s, s', ps, h, hs => by
    obtain ⟨s1, h1, h2⟩ := steps_cons hs
    have ih := Pages.steps prog (pre ++ [c]) s1 s' _ (h.step h1) h2
    rw [← drawn_append, List.append_assoc, List.singleton_append] at ih
    have : trace s c ++ (docOps s1.next prog).zip (outcomes s1.doc (docOps s1.next prog)) =
        (docOps s.next (c :: prog)).zip (outcomes s.doc (docOps s.next (c :: prog))) := by
      unfold trace
      simp only [docOps]
      cases step_made h1 with
      | pen a1 k a2 a3 a4 a5 => rw [a1, a3, a5]; simp
      | err op a1 a2 a3 a5 => rw [a1, a5]; simp [outcomes, a2]
      | quiet op a1 a2 a3 a4 a5 => rw [a1, a5]; simp [outcomes, a2]
      | both op a1 a2 k a3 a4 a5 => rw [a1, a5]; simp [outcomes, a2]
    rwa [this] at ih

end Verif.Program
