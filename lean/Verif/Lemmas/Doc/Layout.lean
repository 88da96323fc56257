import Verif.Lemmas.Doc.Fresh
/- The page layout of the specification, the view, and SetPage. -/
namespace Verif.Doc

theorem lastPg_some {l : List Obj} {j p : Nat} : lastPg l j = some p ↔
    pg l p = true ∧ p < j ∧ ∀ q, p < q → q < j → pg l q = false := by
  induction j with
  | zero => simp [lastPg]
  | succ j ih =>
    unfold lastPg
    split
    · next h =>
      simp only [Option.some.injEq]
      constructor
      · rintro rfl; exact ⟨h, by omega, fun q h1 h2 => by omega⟩
      · rintro ⟨_, h2, h3⟩
        by_cases hjp : j = p
        · exact hjp
        · have := h3 j (by omega) (by omega)
          rw [h] at this; simp at this
    · next h =>
      rw [ih]
      constructor
      · rintro ⟨h1, h2, h3⟩
        refine ⟨h1, by omega, fun q hq hq' => ?_⟩
        by_cases e : q = j
        · subst e; simpa using h
        · exact h3 q hq (by omega)
      · rintro ⟨h1, h2, h3⟩
        have : p ≠ j := by rintro rfl; exact h h1
        exact ⟨h1, by omega, fun q hq hq' => h3 q hq (by omega)⟩

theorem objAt_succ (d : Doc) (i : Nat) : d.objAt (i + 1) = d.objs[i]? := by simp [Doc.objAt]

theorem kind_pg (d : Doc) (i : Nat) : decide ((d.objs[i]?).map Obj.kind = some Kind.page) = pg d.objs i := by
  unfold pg
  cases h : d.objs[i]? with
  | none => simp
  | some o => cases o <;> simp [Obj.kind, Obj.isPg]

theorem kind_ct (d : Doc) (i : Nat) : decide ((d.objs[i]?).map Obj.kind = some Kind.contentStream) = ct d.objs i := by
  unfold ct
  cases h : d.objs[i]? with
  | none => simp
  | some o => cases o <;> simp [Obj.kind, Obj.isCt]

theorem pageNums_eq (d : Doc) : d.pageNums = d.pgIdx.map (· + 1) := by
  unfold Doc.pageNums Doc.pgIdx pgs
  rw [List.filter_map]
  congr 1
  apply List.filter_congr
  intro i _
  simp only [Function.comp, objAt_succ]
  exact kind_pg d i

def Doc.ctAll (d : Doc) : List Nat := (List.range d.objs.length).filter (ct d.objs)

theorem contentNums_eq (d : Doc) : d.contentNums = d.ctAll.map (· + 1) := by
  unfold Doc.contentNums Doc.ctAll
  rw [List.filter_map]
  congr 1
  apply List.filter_congr
  intro i _
  simp only [Function.comp, objAt_succ]
  exact kind_ct d i

theorem streamText_succ (d : Doc) (i : Nat) : d.streamText (i + 1) = tagsAt d.objs i := by
  unfold Doc.streamText tagsAt; rw [objAt_succ]; rfl

theorem view_items (d : Doc) : d.view.items = d.objs.filterMap Obj.item := by
  simp only [Doc.view, Doc.its, List.filterMap_map]; rfl

theorem layout_eq (d : Doc) : d.layout = groups d.view.items := by
  rw [view_items, groups_eq]
  unfold Doc.layout
  rw [pageNums_eq, contentNums_eq, List.map_map]
  show _ = d.pgIdx.map _
  apply List.map_congr_left
  intro p hp
  simp only [Function.comp]
  rw [List.filter_map, List.flatMap_map]
  have key : ∀ P : Nat → Bool, (∀ j, P j = true ↔
      (p + 1 < j + 1 ∧ ∀ q ∈ d.pgIdx.map (· + 1), ¬ (p + 1 < q ∧ q < j + 1))) →
      d.ctAll.filter P = cts d.objs p d.objs.length := by
    intro P hP
    unfold Doc.ctAll cts
    rw [List.filter_filter]
    apply List.filter_congr
    intro j hj
    rw [Bool.and_comm]
    congr 1
    rw [Bool.eq_iff_iff, hP]
    simp only [beq_iff_eq]
    rw [lastPg_some]
    have hpp := (mem_pgs.1 hp).2
    constructor
    · rintro ⟨h1, h2⟩
      refine ⟨hpp, by omega, fun q hq hq' => ?_⟩
      cases hpq : pg d.objs q with
      | false => rfl
      | true =>
        exfalso
        simp at hj
        exact h2 (q + 1) (List.mem_map.2 ⟨q, mem_pgs.2 ⟨by omega, hpq⟩, rfl⟩) (by omega)
    · rintro ⟨_, h2, h3⟩
      refine ⟨by omega, fun q hq hq' => ?_⟩
      obtain ⟨x, hx, rfl⟩ := List.mem_map.1 hq
      have := h3 x (by omega) (by omega)
      rw [(mem_pgs.1 hx).2] at this; simp at this
  rw [key _ (fun j => by simp only [Function.comp, decide_eq_true_eq])]
  congr 1

theorem Base.cv {d : Doc} (b : Base d) : Cv d := by
  intro i hi
  have h := b.content i hi
  unfold Doc.idents at h
  rw [List.getElem?_map] at h
  cases ho : d.objs[i]? with
  | none => rw [ho] at h; simp at h
  | some o =>
    rw [ho] at h
    simp at h
    cases o <;> simp [Obj.ident] at h
    exact ⟨_, rfl⟩

theorem page_ne0 {d : Doc} (b : Base d) {p : Nat} (h : p ∈ d.pgIdx) : p ≠ 0 := by
  rintro rfl
  have hp := (mem_pgs.1 h).2
  have hb := b.b0
  unfold pg at hp
  cases ho : d.objs[0]? with
  | none => rw [ho] at hp; simp at hp
  | some o =>
    rw [ho] at hp
    rw [ident_at ho] at hb
    simp at hb hp
    cases o <;> simp [Obj.isPg] at hp <;> simp [Obj.ident] at hb

/-- After the first compile a reader finds the layout. -/
theorem prepare_texts {d : Doc} (b : Base d) (f : Fresh d) : d.pgIdx.map (fun p => d.prepare.pageText (p + 1)) = d.layout := by
  rw [layout_eq, view_items, groups_eq]
  apply List.map_congr_left
  intro p hp
  have h0 := page_ne0 b hp
  have hpg := (mem_pgs.1 hp).2
  obtain ⟨c, a, r, ho⟩ : ∃ c a r, d.objs[p]? = some (.page c a r) := by
    unfold pg at hpg
    cases ho : d.objs[p]? with
    | none => rw [ho] at hpg; simp at hpg
    | some o =>
      rw [ho] at hpg
      obtain ⟨c, a, r, rfl⟩ := isPg_iff.1 (by simpa using hpg)
      exact ⟨c, a, r, rfl⟩
  have hc : c = [] := by
    have := f _ (List.mem_of_getElem? ho)
    simp [Obj.tree, Blank] at this
    exact this
  subst hc
  unfold Doc.pageText
  rw [objAt_succ, prepare_page h0 ho]
  simp only [List.nil_append]
  rw [List.flatMap_map]
  rw [List.flatMap_def, List.flatMap_def]
  show (List.map _ (d.ctIdx p)).flatten = (List.map _ (d.ctIdx p)).flatten
  congr 1
  apply List.map_congr_left
  intro j hj
  rw [streamText_succ]
  have hct : ct d.objs j = true := by
    simp [Doc.ctIdx, cts] at hj; exact hj.2.1
  unfold ct at hct
  unfold tagsAt
  cases hoj : d.objs[j]? with
  | none => rw [hoj] at hct; simp at hct
  | some o =>
    rw [hoj] at hct
    obtain ⟨es, rfl⟩ := isCt_iff.1 (by simpa using hct)
    rw [prepare_get (plain_content es) rfl hoj]

/-! One stream per page. -/

/-- At most one stream between two pages, and none after the last page when no stream is selected. -/
structure One (v : View) : Prop where
  alone : ∀ i : Nat, ∀ ts ts', v.items[i]? = some (.content ts) → v.items[i + 1]? ≠ some (.content ts')
  fresh : v.cur = none → ∀ l ts, v.items ≠ l ++ [.content ts]
  cur : ∀ i, v.cur = some i → ∃ ts, v.items[i]? = some (.content ts)

theorem One.touch {v : View} (h : One v) : One v.touch := by
  unfold View.touch
  cases hc : v.cur with
  | some i => exact h
  | none =>
    refine ⟨?_, by simp, ?_⟩
    · intro i ts ts' hi
      rcases Nat.lt_trichotomy (i + 1) v.items.length with hl | hl | hl
      · rw [List.getElem?_append_left (by omega)] at hi
        simp only
        rw [List.getElem?_append_left hl]
        exact h.alone i ts ts' hi
      · exfalso
        simp only at hi
        rw [List.getElem?_append_left (by omega)] at hi
        rcases List.eq_nil_or_concat v.items with e | ⟨l, x, e⟩
        · rw [e] at hl; simp at hl
        · rw [List.concat_eq_append] at e
          rw [e] at hi hl
          simp at hl
          subst hl
          rw [List.getElem?_append_right (by omega)] at hi
          simp at hi
          subst hi
          exact h.fresh hc _ _ e
      · simp only
        rw [List.getElem?_eq_none (by simp; omega)]
        simp
    · intro i hi
      simp at hi
      subst hi
      exact ⟨[], by simp⟩

theorem One.draw {v : View} (h : One v) (t : Nat) : One (v.draw t) := by
  have h' := h.touch
  unfold View.draw
  generalize v.touch = w at h'
  have key : ∀ (j : Nat) ts, (w.items.modify (w.cur.getD 0) (Item.addTag t))[j]? = some (.content ts) →
      ∃ ts', w.items[j]? = some (.content ts') := by
    intro j ts hj
    rw [List.getElem?_modify] at hj
    cases hw : w.items[j]? with
    | none => rw [hw] at hj; simp at hj
    | some x =>
      rw [hw] at hj
      cases x with
      | page => split at hj <;> simp [Item.addTag] at hj
      | content ts' => exact ⟨ts', rfl⟩
  refine ⟨?_, ?_, ?_⟩
  · intro i ts ts' h1 h2
    obtain ⟨_, e1⟩ := key i ts h1
    obtain ⟨_, e2⟩ := key (i + 1) ts' h2
    exact h'.alone i _ _ e1 e2
  · intro hc l ts he
    have hlen := congrArg List.length he
    simp at hlen
    have : (w.items.modify (w.cur.getD 0) (Item.addTag t))[l.length]? = some (.content ts) := by
      simp only [] at he; rw [he]; simp
    obtain ⟨ts', e⟩ := key _ _ this
    refine h'.fresh hc (w.items.take l.length) ts' ?_
    apply List.ext_getElem?
    intro j
    rcases Nat.lt_trichotomy j l.length with hj | hj | hj
    · rw [List.getElem?_append_left (by simp; omega), List.getElem?_take_of_lt hj]
    · subst hj; rw [e, List.getElem?_append_right (by simp; omega)]; simp [hlen]
    · rw [List.getElem?_eq_none (by omega), List.getElem?_eq_none (by simp; omega)]
  · intro i hi
    obtain ⟨ts, e⟩ := h'.cur i hi
    show ∃ ts, (w.items.modify (w.cur.getD 0) (Item.addTag t))[i]? = some (.content ts)
    rw [List.getElem?_modify, e]
    by_cases hq : w.cur.getD 0 = i
    · exact ⟨ts ++ [t], by simp [hq, Item.addTag]⟩
    · exact ⟨ts, by simp [hq]⟩

/-- Position of a stream among pages and streams. -/
theorem rank_get {l : List (Option Item)} {i : Nat} {x : Item} (h : l[i]? = some (some x)) :
    (l.filterMap id)[rank l i]? = some x := by
  induction l generalizing i with
  | nil => simp at h
  | cons a l ih =>
    cases i with
    | zero => simp at h; subst h; simp [rank]
    | succ i =>
      simp at h
      have := ih h
      cases a <;> simpa [rank] using this

theorem One.setPage {d : Doc} (b : Base d) (h : One d.view) (k : Nat) : One (d.setPage k).1.view := by
  unfold Doc.setPage
  split
  · next i hi =>
    obtain ⟨j, es, rfl, ho⟩ := findContent_some hi
    simp only [Nat.zero_add] at hi ⊢
    refine ⟨h.alone, by simp [Doc.view], ?_⟩
    intro r hr
    simp [Doc.view] at hr
    subst hr
    exact ⟨es.map (·.tag), rank_get (by simp [Doc.its, ho, Obj.item])⟩
  · exact h

theorem one_start (p : Bool) : One (start p).view := by
  have : (start p).view.items = [] := by rfl
  refine ⟨by simp [this], by simp [this], ?_⟩
  intro i hi
  have : (start p).view.cur = none := rfl
  rw [this] at hi; simp at hi

theorem reachable_one {d : Doc} (h : Reachable d) : One d.view := by
  obtain ⟨p, ops, rfl⟩ := h
  suffices ∀ (ops : List Op) (d : Doc), Base d → One d.view → One (exec d ops).view from
    this ops _ (Base.start p) (one_start p)
  intro ops
  induction ops with
  | nil => intro d _ h; exact h
  | cons op ops ih =>
    intro d b h
    refine ih _ (both_step Base.stable.toStable0 ⟨b, b⟩ op (fun _ => Base.stable.prepare d b b)).1 ?_
    rcases step_view b.cv op with ⟨rfl, hv, _⟩ | ⟨k, rfl⟩ | ⟨t, ht, hcv, hd⟩ | ⟨_, _, hv, _⟩
    · rw [hv]
      refine ⟨?_, ?_, by simp⟩
      · intro i ts ts' hi
        simp only at hi ⊢
        rcases Nat.lt_or_ge (i + 1) d.view.items.length with hl | hl
        · rw [List.getElem?_append_left (by omega)] at hi
          rw [List.getElem?_append_left hl]
          exact h.alone i ts ts' hi
        · intro hi'
          have := lt_of_get hi'
          simp at this
          have e : i + 1 = d.view.items.length := by omega
          rw [e] at hi'
          simp at hi'
      · intro _ l ts he
        have := congrArg List.getLast? he
        simp at this
    · exact h.setPage b k
    · rcases hd with ⟨_, hv⟩ | ⟨_, hv | hv⟩
      · rw [hv]; exact h.draw t
      · rw [hv]; exact h
      · rw [hv]; exact h.touch
    · rw [hv]; exact h

/-! SetPage. -/

def Item.isC : Item → Bool
  | .content _ => true
  | .page => false

@[simp] theorem isC_page : Item.page.isC = false := rfl
@[simp] theorem isC_content (ts : List Nat) : (Item.content ts).isC = true := rfl
@[simp] theorem isCt_content (es : List Entry) : (Obj.content es).isCt = true := rfl

def inter (tss : List (List Nat)) : List Item := tss.flatMap (fun ts => [.page, .content ts])

/-- A list of pages and streams in which no two streams are adjacent and which starts with a page has at most as many
streams as pages. -/
theorem count_le : ∀ (n : Nat) (l : List Item), l.length ≤ n →
    (∀ i : Nat, ∀ ts ts', l[i]? = some (.content ts) → l[i + 1]? ≠ some (.content ts')) →
    (∀ ts, l[0]? ≠ some (.content ts)) → (l.filter Item.isC).length ≤ (l.filter (fun i => !i.isC)).length ∧
    ((l.filter Item.isC).length = (l.filter (fun i => !i.isC)).length → ∃ tss, l = inter tss) := by
  intro n
  induction n with
  | zero =>
    intro l hl _ _
    have : l = [] := by cases l <;> simp_all
    subst this
    exact ⟨by simp, fun _ => ⟨[], rfl⟩⟩
  | succ n ih =>
    intro l hl ha h0
    match l, hl, ha, h0 with
    | [], _, _, _ => exact ⟨by simp, fun _ => ⟨[], rfl⟩⟩
    | .content ts :: l, _, _, h0 => exact absurd rfl (h0 ts)
    | [.page], _, _, _ => exact ⟨by simp, by simp⟩
    | .page :: .page :: l, hl, ha, _ =>
      have := (ih (.page :: l) (by simp at hl ⊢; omega) (fun i ts ts' h => ha (i + 1) ts ts' (by simpa using h))
        (by simp)).1
      simp [List.filter_cons] at this ⊢
      refine ⟨by omega, fun h => by omega⟩
    | .page :: .content ts :: l, hl, ha, _ =>
      have h1 : ∀ ts', l[0]? ≠ some (.content ts') := fun ts' h => ha 1 ts ts' rfl (by simpa using h)
      have := ih l (by simp at hl ⊢; omega) (fun i ts ts' h => ha (i + 2) ts ts' (by simpa using h)) h1
      simp [List.filter_cons] at this ⊢
      refine ⟨by omega, fun h => ?_⟩
      obtain ⟨tss, e⟩ := this.2 (by omega)
      exact ⟨ts :: tss, by rw [e]; rfl⟩

theorem groupsFrom_inter (ps tss : List (List Nat)) : groupsFrom ps (inter tss) = ps ++ tss := by
  induction tss generalizing ps with
  | nil => simp [inter, groupsFrom]
  | cons ts tss ih =>
    show groupsFrom (addAllToLast ts (ps ++ [[]])) (inter tss) = _
    rw [addAllToLast_snoc, ih]
    simp

theorem inter_modify (tss : List (List Nat)) (k t : Nat) : (inter tss).modify (2 * k + 1) (Item.addTag t) =
    inter (tss.modify k (· ++ [t])) := by
  induction tss generalizing k with
  | nil => simp [inter]
  | cons ts tss ih =>
    cases k with
    | zero => simp [inter, Item.addTag]
    | succ k =>
      have e : 2 * (k + 1) + 1 = (2 * k + 1) + 2 := by omega
      rw [e]
      show (Item.page :: Item.content ts :: inter tss).modify (2 * k + 1 + 2) _ = _
      rw [List.modify_succ_cons, List.modify_succ_cons, ih]
      rfl

/-- The stream with `k` streams before it is at position `2k+1`. -/
theorem inter_pos (tss : List (List Nat)) (r : Nat) (ts : List Nat) (h : (inter tss)[r]? = some (.content ts)) :
    r = 2 * (((inter tss).take r).filter Item.isC).length + 1 := by
  induction tss generalizing r with
  | nil => simp [inter] at h
  | cons x tss ih =>
    have e : inter (x :: tss) = .page :: .content x :: inter tss := rfl
    rw [e] at h ⊢
    match r, h with
    | 0, h => simp at h
    | 1, _ => simp
    | r + 2, h =>
      simp at h
      have := ih r h
      simp [List.filter_cons]
      omega

theorem findContent_spec {k n c : Nat} {l : List Obj} :
    (∀ i, findContent k n c l = some i → ∃ j es, i = n + j ∧ l[j]? = some (.content es) ∧
      c + ((l.take j).filter Obj.isCt).length + 1 = k) ∧
    (findContent k n c l = none ↔ k ≤ c ∨ c + (l.filter Obj.isCt).length < k) := by
  induction l generalizing n c with
  | nil => simp [findContent]; omega
  | cons a l ih =>
    cases hct : a.isCt with
    | true =>
      obtain ⟨es, rfl⟩ := isCt_iff.1 hct
      unfold findContent
      split
      · next hk =>
        refine ⟨?_, ?_⟩
        · intro i hi
          simp at hi
          exact ⟨0, es, by omega, rfl, by simp [List.filter_cons]; omega⟩
        · simp [List.filter_cons]; omega
      · next hk =>
        obtain ⟨h1, h2⟩ := ih (n := n + 1) (c := c + 1)
        refine ⟨?_, ?_⟩
        · intro i hi
          obtain ⟨j, es', e1, e2, e3⟩ := h1 i hi
          refine ⟨j + 1, es', by omega, by simpa using e2, ?_⟩
          simp [List.filter_cons]; omega
        · rw [h2]; simp [List.filter_cons]; omega
    | false =>
      have hf : findContent k n c (a :: l) = findContent k (n + 1) c l := by
        cases a <;> simp [Obj.isCt] at hct <;> rfl
      rw [hf]
      obtain ⟨h1, h2⟩ := ih (n := n + 1) (c := c)
      refine ⟨?_, ?_⟩
      · intro i hi
        obtain ⟨j, es', e1, e2, e3⟩ := h1 i hi
        exact ⟨j + 1, es', by omega, by simpa using e2, by simp [hct, List.filter_cons]; omega⟩
      · rw [h2]; simp [hct, List.filter_cons]

theorem len_filter_items (l : List Obj) : (((l.map Obj.item).filterMap id).filter Item.isC).length =
    (l.filter Obj.isCt).length ∧ (((l.map Obj.item).filterMap id).filter (fun i => !i.isC)).length =
    (l.filter Obj.isPg).length := by
  induction l with
  | nil => exact ⟨rfl, rfl⟩
  | cons a l ih => cases a <;> simp [List.filter_cons, Obj.item, Obj.isCt, Obj.isPg] <;> simpa using ih

theorem take_rank (l : List (Option Item)) (i : Nat) : (l.filterMap id).take (rank l i) = (l.take i).filterMap id := by
  unfold rank
  conv => lhs; arg 2; rw [← List.take_append_drop i l, List.filterMap_append]
  rw [List.take_left']
  rfl

theorem length_filter_range (l : List Obj) (p : Obj → Bool) :
    ((List.range l.length).filter (fun i => (l[i]?.map p).getD false)).length = (l.filter p).length := by
  induction l using List.reverseRecOn with
  | nil => rfl
  | append_singleton l a ih =>
    rw [List.length_append, List.length_singleton, List.range_succ, List.filter_append, List.filter_append,
      List.length_append, List.length_append]
    congr 1
    · rw [← ih]
      congr 1
      apply List.filter_congr
      intro i hi
      rw [List.getElem?_append_left (by simpa using hi)]
    · simp [List.filter_cons]
      split <;> simp_all

theorem pageNums_len (d : Doc) : d.pageNums.length = (d.objs.filter Obj.isPg).length := by
  rw [pageNums_eq, List.length_map]; exact length_filter_range d.objs Obj.isPg
theorem contentNums_len (d : Doc) : d.contentNums.length = (d.objs.filter Obj.isCt).length := by
  rw [contentNums_eq, List.length_map]; exact length_filter_range d.objs Obj.isCt

theorem pages_of_view (d : Doc) : d.pageNums.length = (d.view.items.filter (fun i => !i.isC)).length := by
  rw [pageNums_len]; exact (len_filter_items d.objs).2.symm
theorem contents_of_view (d : Doc) : d.contentNums.length = (d.view.items.filter Item.isC).length := by
  rw [contentNums_len]; exact (len_filter_items d.objs).1.symm

/-- With as many streams as pages and no stream before the first page, pages and streams alternate. -/
theorem reachable_inter {d : Doc} (h : Reachable d) (h1 : d.contentNums.length = d.pageNums.length)
    (h2 : ∀ c ∈ d.contentNums, ∃ p ∈ d.pageNums, p < c) : ∃ tss, d.view.items = inter tss := by
  have o := reachable_one h
  refine (count_le d.view.items.length d.view.items (Nat.le_refl _) o.alone ?_).2 ?_
  · intro ts h0
    -- the first item would be a stream without a page before it
    rw [view_items] at h0
    have key : ∀ l : List Obj, (l.filterMap Obj.item)[0]? = some (.content ts) →
        ∃ j, ct l j = true ∧ j < l.length ∧ ∀ q, q < j → pg l q = false := by
      intro l
      induction l with
      | nil => simp
      | cons a l ih =>
        intro hl
        cases hi : a.item with
        | some x =>
          rw [List.filterMap_cons_some hi] at hl
          simp at hl
          subst hl
          obtain ⟨es, rfl, _⟩ := item_content hi
          exact ⟨0, rfl, by simp, by simp⟩
        | none =>
          rw [List.filterMap_cons_none hi] at hl
          obtain ⟨j, e1, e2, e3⟩ := ih hl
          refine ⟨j + 1, by simpa [ct] using e1, by simp; omega, ?_⟩
          intro q hq
          cases q with
          | zero => cases a <;> simp [Obj.item] at hi <;> rfl
          | succ q => have := e3 q (by omega); simpa [pg] using this
    obtain ⟨j, e1, e2, e3⟩ := key d.objs h0
    have hm : j + 1 ∈ d.contentNums := by
      rw [contentNums_eq]
      exact List.mem_map.2 ⟨j, by simp [Doc.ctAll, e1, e2], rfl⟩
    obtain ⟨p, hp, hlt⟩ := h2 _ hm
    rw [pageNums_eq] at hp
    obtain ⟨q, hq, rfl⟩ := List.mem_map.1 hp
    have := e3 q (by omega)
    rw [(mem_pgs.1 hq).2] at this
    simp at this
  · rw [← contents_of_view, ← pages_of_view]; exact h1

/-- Number of pages. -/
theorem numPages_eq {d : Doc} (h : Reachable d) : d.numPages = d.pageNums.length := by
  obtain ⟨p, ops, rfl⟩ := h
  suffices ∀ (ops : List Op) (d : Doc), Base d → d.view.n = (d.view.items.filter (fun i => !i.isC)).length →
      (exec d ops).view.n = ((exec d ops).view.items.filter (fun i => !i.isC)).length by
    rw [pages_of_view]
    exact this ops _ (Base.start p) rfl
  intro ops
  induction ops with
  | nil => intro d _ h; exact h
  | cons op ops ih =>
    intro d b h
    have ht : ∀ v : View, v.touch.n = v.n ∧ (v.touch.items.filter (fun i => !i.isC)).length =
        (v.items.filter (fun i => !i.isC)).length := by
      intro v; unfold View.touch; cases v.cur <;> simp [List.filter_cons]
    have hd : ∀ (v : View) t, (v.draw t).n = v.n ∧ ((v.draw t).items.filter (fun i => !i.isC)).length =
        (v.items.filter (fun i => !i.isC)).length := by
      intro v t
      refine ⟨(ht v).1, ?_⟩
      rw [← (ht v).2]
      unfold View.draw
      generalize v.touch = w
      have : ∀ l : List Item, ∀ r, ((l.modify r (Item.addTag t)).filter (fun i => !i.isC)).length =
          (l.filter (fun i => !i.isC)).length := by
        intro l
        induction l with
        | nil => simp
        | cons a l ih =>
          intro r
          cases r with
          | zero => cases a <;> simp [Item.addTag, List.filter_cons]
          | succ r => rw [List.modify_succ_cons]; cases a <;> simp [List.filter_cons, ih r]
      exact this _ _
    refine ih _ (both_step Base.stable.toStable0 ⟨b, b⟩ op (fun _ => Base.stable.prepare d b b)).1 ?_
    rcases step_view b.cv op with ⟨rfl, hv, _⟩ | ⟨k, rfl⟩ | ⟨t, _, hcv, hdr⟩ | ⟨_, _, hv, _⟩
    · rw [hv]; simp [List.filter_cons, h]
    · show (d.setPage k).1.view.n = ((d.setPage k).1.view.items.filter _).length
      rw [setPage_fields]
      exact h
    · rcases hdr with ⟨_, hv⟩ | ⟨_, hv | hv⟩
      · rw [hv, (hd _ _).1, (hd _ _).2]; exact h
      · rw [hv]; exact h
      · rw [hv, (ht _).1, (ht _).2]; exact h
    · rw [hv]; exact h

/-- Pages only appear by AddPage. -/
theorem step_pageNums {d : Doc} (h : Reachable d) (op : Op) :
    (step d op).1.pageNums = d.pageNums ++ (if op = .addPage then [d.nextID] else []) := by
  have b := reachable_base h
  by_cases hop : op = .addPage
  · subst hop
    rw [pageNums_eq, pageNums_eq]
    show (pgs (d.objs ++ [_]) (d.objs ++ [_]).length).map _ = _
    rw [pgs_snoc]
    simp [Obj.isPg, Doc.pgIdx, Doc.nextID]
  · rw [if_neg hop, List.append_nil]
    have hr : Reachable (step d op).1 := by
      obtain ⟨p, ops, rfl⟩ := h
      exact ⟨p, ops ++ [op], by rw [exec_append]; rfl⟩
    -- same number of pages, and the old ones are a prefix
    have hn : (step d op).1.numPages = d.numPages := by
      show (step d op).1.view.n = d.view.n
      rcases step_view b.cv op with ⟨e, _, _⟩ | ⟨k, rfl⟩ | ⟨t, _, hcv, hdr⟩ | ⟨_, _, hv, _⟩
      · exact absurd e hop
      · show (d.setPage k).1.view.n = _; rw [setPage_fields]; rfl
      · have ht : d.view.touch.n = d.view.n := by unfold View.touch; cases d.view.cur <;> rfl
        rcases hdr with ⟨_, hv⟩ | ⟨_, hv | hv⟩
        · rw [hv]; exact ht
        · rw [hv]
        · rw [hv]; exact ht
      · rw [hv]
    rw [numPages_eq h, numPages_eq hr] at hn
    have hx := step_ext d op
    obtain ⟨l, hl⟩ := hx
    have hpre : ∀ i, i < d.objs.length → pg (step d op).1.objs i = pg d.objs i := by
      intro i hi
      apply pg_ident
      show (step d op).1.idents[i]? = d.idents[i]?
      rw [← hl, List.getElem?_append_left (by rw [idents_len]; exact hi)]
    have hlen : d.objs.length ≤ (step d op).1.objs.length := by
      have := congrArg List.length hl
      rw [List.length_append, idents_len, idents_len] at this
      omega
    rw [pageNums_eq, pageNums_eq] at hn ⊢
    simp only [List.length_map] at hn
    have hp : d.pgIdx <+: (step d op).1.pgIdx := by
      unfold Doc.pgIdx
      rw [← pgs_congr hpre]
      unfold pgs
      have : List.range d.objs.length <+: List.range (step d op).1.objs.length := by
        refine ⟨(List.range ((step d op).1.objs.length - d.objs.length)).map (d.objs.length + ·), ?_⟩
        rw [← List.range_add]; congr 1; omega
      exact this.filter _
    rw [hp.eq_of_length hn.symm]

/-! Where a drawing goes. -/

theorem groupsFrom_page (l : List Item) (h : ∀ ts, l[0]? ≠ some (.content ts)) (ps : List (List Nat)) :
    groupsFrom ps l = ps ++ groupsFrom [] l := by
  match l, h with
  | [], _ => simp [groupsFrom]
  | .content ts :: l, h => exact absurd rfl (h ts)
  | .page :: l, _ =>
    show groupsFrom (ps ++ [[]]) l = ps ++ groupsFrom [[]] l
    -- a non-empty accumulator: everything happens in its last element or later
    have key : ∀ (l : List Item) (qs : List (List Nat)) (x : List Nat), groupsFrom (qs ++ [x]) l = qs ++ groupsFrom [x] l := by
      intro l
      induction l with
      | nil => intro qs x; rfl
      | cons a l ih =>
        intro qs x
        cases a with
        | page =>
          show groupsFrom (qs ++ [x] ++ [[]]) l = qs ++ groupsFrom ([x] ++ [[]]) l
          rw [ih, ih [x] [], List.append_assoc]
        | content ts =>
          show groupsFrom (addAllToLast ts (qs ++ [x])) l = qs ++ groupsFrom [x ++ ts] l
          rw [addAllToLast_snoc, ih]
    exact key l ps []

theorem groups_draw {l : List Item} {r : Nat} {ts : List Nat} (hr : l[r]? = some (.content ts))
    (ha : ∀ ts', l[r + 1]? ≠ some (.content ts')) (t : Nat) :
    groups (l.modify r (Item.addTag t)) = groups l ∨
    ∃ k, k < (groups l).length ∧ groups (l.modify r (Item.addTag t)) = (groups l).modify k (· ++ [t]) := by
  have hlt := lt_of_get hr
  have e1 : l = l.take r ++ (.content ts :: l.drop (r + 1)) := by
    conv => lhs; rw [← List.take_append_drop r l]
    congr 1
    rw [← List.getElem_cons_drop hlt]
    congr 1
    rw [List.getElem?_eq_getElem hlt] at hr
    simpa using hr
  have e2 : l.modify r (Item.addTag t) = l.take r ++ (.content (ts ++ [t]) :: l.drop (r + 1)) := by
    conv => lhs; rw [e1]
    have hl : (l.take r).length = r := by simp; omega
    generalize l.take r = p at hl
    subst hl
    apply List.ext_getElem?
    intro j
    rw [List.getElem?_modify]
    rcases Nat.lt_trichotomy j p.length with hj | hj | hj
    · rw [List.getElem?_append_left hj, List.getElem?_append_left hj]; simp [Nat.ne_of_gt hj]
    · rw [List.getElem?_append_right (by omega), List.getElem?_append_right (by omega)]
      simp [hj, Item.addTag]
    · rw [List.getElem?_append_right (by omega), List.getElem?_append_right (by omega)]
      obtain ⟨m, hm⟩ : ∃ m, j - p.length = m + 1 := ⟨j - p.length - 1, by omega⟩
      rw [hm]
      simp [Nat.ne_of_lt hj]
  have h0 : ∀ ts', (l.drop (r + 1))[0]? ≠ some (.content ts') := by
    intro ts' h; exact ha ts' (by simpa using h)
  generalize hL : l.drop (r + 1) = m at *
  generalize l.take r = p at *
  rw [e2, e1]
  unfold groups
  rw [groupsFrom_append, groupsFrom_append]
  generalize groupsFrom [] p = gs
  show groupsFrom (addAllToLast (ts ++ [t]) gs) m = groupsFrom (addAllToLast ts gs) m ∨
    ∃ k, k < (groupsFrom (addAllToLast ts gs) m).length ∧
      groupsFrom (addAllToLast (ts ++ [t]) gs) m = (groupsFrom (addAllToLast ts gs) m).modify k (· ++ [t])
  rw [groupsFrom_page m h0, groupsFrom_page m h0 (addAllToLast ts gs)]
  rcases List.eq_nil_or_concat gs with rfl | ⟨qs, x, rfl⟩
  · left; rfl
  · right
    rw [List.concat_eq_append, addAllToLast_snoc, addAllToLast_snoc]
    refine ⟨qs.length, by simp, ?_⟩
    apply List.ext_getElem?
    intro j
    rw [List.getElem?_modify]
    rcases Nat.lt_trichotomy j qs.length with hj | hj | hj
    · rw [List.append_assoc, List.append_assoc, List.getElem?_append_left hj, List.getElem?_append_left hj]
      simp [Nat.ne_of_gt hj]
    · subst hj; simp
    · rw [List.getElem?_append_right (by simp; omega), List.getElem?_append_right (by simp; omega)]
      simp [Nat.ne_of_lt hj]

theorem groups_touch (v : View) : groups v.touch.items = groups v.items := by
  unfold View.touch
  cases v.cur with
  | some i => rfl
  | none =>
    simp only [groups, groupsFrom_append]
    exact addAll_nil _

theorem length_groups (l : List Item) : (groups l).length = (l.filter (fun i => !i.isC)).length := by
  have : ∀ (l : List Item) ps, (groupsFrom ps l).length = ps.length + (l.filter (fun i => !i.isC)).length := by
    intro l
    induction l with
    | nil => intro ps; simp [groupsFrom]
    | cons a l ih =>
      intro ps
      cases a with
      | page => simp [groupsFrom, ih, List.filter_cons]; omega
      | content ts =>
        simp only [groupsFrom, ih]
        rcases List.eq_nil_or_concat ps with rfl | ⟨qs, x, rfl⟩
        · simp [addAllToLast, List.filter_cons]
        · rw [List.concat_eq_append, addAllToLast_snoc]; simp [List.filter_cons]
  simpa [groups] using this l []

end Verif.Doc
