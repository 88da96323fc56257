import Verif.Lemmas.Doc.New
import Verif.Spec.DocPages
/- What `prepare` does to the page tree and the pages. -/
namespace Verif.Doc

def Obj.isPg : Obj → Bool
  | .page _ _ _ => true
  | _ => false
def Obj.isCt : Obj → Bool
  | .content _ => true
  | _ => false

def pg (l : List Obj) (i : Nat) : Bool := (l[i]?.map Obj.isPg).getD false
def ct (l : List Obj) (i : Nat) : Bool := (l[i]?.map Obj.isCt).getD false

/-- The last page before index `k`. -/
def lastPg (l : List Obj) : Nat → Option Nat
  | 0 => none
  | k + 1 => if pg l k then some k else lastPg l k

def pgs (l : List Obj) (k : Nat) : List Nat := (List.range k).filter (pg l)
def cts (l : List Obj) (p k : Nat) : List Nat := (List.range k).filter (fun j => ct l j && lastPg l j == some p)

theorem pgs_succ (l : List Obj) (k : Nat) : pgs l (k + 1) = pgs l k ++ (if pg l k then [k] else []) := by
  unfold pgs
  rw [List.range_succ, List.filter_append]
  congr 1
  cases h : pg l k <;> simp [h]

theorem cts_succ (l : List Obj) (p k : Nat) :
    cts l p (k + 1) = cts l p k ++ (if ct l k && lastPg l k == some p then [k] else []) := by
  unfold cts
  rw [List.range_succ, List.filter_append]
  congr 1
  cases h : (ct l k && lastPg l k == some p) <;> simp_all

/-- The object at index `i` after `k` iterations of the loop of `prepare`. -/
def prepObj (l : List Obj) (k i : Nat) : Obj → Obj
  | .pages kids c => if i = 1 then .pages (kids ++ (pgs l k).map (· + 1)) (c + (pgs l k).length) else .pages kids c
  | .page c a r => .page (c ++ (cts l i k).map (· + 1)) a r
  | o => o

theorem isPg_prepObj (l : List Obj) (k i : Nat) (o : Obj) : (prepObj l k i o).isPg = o.isPg := by
  cases o <;> simp only [prepObj] <;> (try split) <;> rfl
theorem isCt_prepObj (l : List Obj) (k i : Nat) (o : Obj) : (prepObj l k i o).isCt = o.isCt := by
  cases o <;> simp only [prepObj] <;> (try split) <;> rfl

theorem isPg_iff {o : Obj} : o.isPg = true ↔ ∃ c a r, o = .page c a r := by cases o <;> simp [Obj.isPg]
theorem isCt_iff {o : Obj} : o.isCt = true ↔ ∃ es, o = .content es := by cases o <;> simp [Obj.isCt]

theorem prepStep_page {st : List Obj × Option Nat × Nat} {k : Nat} {o : Obj} (h : st.1[k]? = some o) (ho : o.isPg = true) :
    prepStep st k = (st.1.modify 1 (Obj.addKid (k + 1)), some k, st.2.2) := by
  obtain ⟨c, a, r, rfl⟩ := isPg_iff.1 ho
  simp [prepStep, h]

theorem prepStep_content {st : List Obj × Option Nat × Nat} {k : Nat} {o : Obj} (h : st.1[k]? = some o)
    (ho : o.isCt = true) : prepStep st k = ((match st.2.1 with
      | some p => st.1.modify p (Obj.addContentId (k + 1))
      | none => st.1), st.2.1, st.2.2) := by
  obtain ⟨es, rfl⟩ := isCt_iff.1 ho
  obtain ⟨a, b, c⟩ := st
  simp only [prepStep] at h ⊢
  rw [h]
  cases b <;> rfl

theorem prepStep_other {st : List Obj × Option Nat × Nat} {k : Nat} (h : ∀ o, st.1[k]? = some o → o.isPg = false ∧ o.isCt = false) :
    (prepStep st k).1 = st.1 ∧ (prepStep st k).2.1 = st.2.1 := by
  unfold prepStep
  split
  · next ho => have := (h _ ho).1; simp [Obj.isPg] at this
  · next ho => have := (h _ ho).2; simp [Obj.isCt] at this
  · exact ⟨rfl, rfl⟩
  · exact ⟨rfl, rfl⟩

/-- Loop invariant of `prepare`. -/
theorem prepFold_inv (l : List Obj) (e k : Nat) :
    (∀ i : Nat, ((List.range k).foldl prepStep (l, none, e)).1[i]? = (l[i]?).map (prepObj l k i)) ∧
    ((List.range k).foldl prepStep (l, none, e)).2.1 = lastPg l k := by
  induction k with
  | zero =>
    refine ⟨fun i => ?_, rfl⟩
    simp only [List.range_zero, List.foldl_nil]
    cases l[i]? with
    | none => rfl
    | some o =>
      cases o <;> simp [prepObj, pgs, cts]
  | succ k ih =>
    rw [List.range_succ, List.foldl_append]
    simp only [List.foldl_cons, List.foldl_nil]
    generalize hst : (List.range k).foldl prepStep (l, none, e) = st at ih
    obtain ⟨ih1, ih2⟩ := ih
    have hk : st.1[k]? = (l[k]?).map (prepObj l k k) := ih1 k
    by_cases hp : pg l k = true
    · obtain ⟨o, ho, hpg⟩ : ∃ o, l[k]? = some o ∧ o.isPg = true := by
        unfold pg at hp; cases h : l[k]? with
        | none => rw [h] at hp; simp at hp
        | some o => rw [h] at hp; exact ⟨o, rfl, by simpa using hp⟩
      have hct : ct l k = false := by
        unfold ct; rw [ho]; cases o <;> simp [Obj.isPg] at hpg <;> rfl
      rw [ho] at hk
      rw [prepStep_page hk (by rw [isPg_prepObj]; exact hpg)]
      refine ⟨fun i => ?_, by simp [lastPg, hp]⟩
      simp only [List.getElem?_modify, ih1]
      cases hi : l[i]? with
      | none => simp
      | some x =>
        simp only [Option.map_some]
        congr 1
        split
        · next h1 =>
          subst h1
          cases x <;> simp [prepObj, Obj.addKid, pgs_succ, cts_succ, hp, hct] <;> omega
        · next h1 =>
          cases x <;> simp [prepObj, pgs_succ, cts_succ, hp, hct, Ne.symm h1]
    · have hp' : pg l k = false := by simpa using hp
      by_cases hc : ct l k = true
      · obtain ⟨o, ho, hct⟩ : ∃ o, l[k]? = some o ∧ o.isCt = true := by
          unfold ct at hc; cases h : l[k]? with
          | none => rw [h] at hc; simp at hc
          | some o => rw [h] at hc; exact ⟨o, rfl, by simpa using hc⟩
        rw [ho] at hk
        rw [prepStep_content hk (by rw [isCt_prepObj]; exact hct)]
        refine ⟨fun i => ?_, by simp [lastPg, hp', ih2]⟩
        simp only [ih2]
        cases hl : lastPg l k with
        | none =>
          simp only [ih1]
          cases hi : l[i]? with
          | none => rfl
          | some x => cases x <;> simp [prepObj, pgs_succ, cts_succ, hp', hl]
        | some p =>
          simp only [List.getElem?_modify, ih1]
          cases hi : l[i]? with
          | none => simp
          | some x =>
            simp only [Option.map_some]
            congr 1
            split
            · next h1 =>
              subst h1
              cases x <;> simp [prepObj, Obj.addContentId, pgs_succ, cts_succ, hp', hc, hl] <;> by_cases h2 : p = 1 <;> simp [h2, Obj.addContentId]
            · next h1 =>
              cases x <;> simp [prepObj, pgs_succ, cts_succ, hp', hc, hl]
              omega
      · have hc' : ct l k = false := by simpa using hc
        have ho := prepStep_other (st := st) (k := k) (by
          intro o h
          rw [hk] at h
          cases hl : l[k]? with
          | none => rw [hl] at h; simp at h
          | some x =>
            rw [hl] at h
            simp at h
            subst h
            rw [isPg_prepObj, isCt_prepObj]
            unfold pg at hp'; unfold ct at hc'
            rw [hl] at hp' hc'
            exact ⟨by simpa using hp', by simpa using hc'⟩)
        rw [ho.1, ho.2]
        refine ⟨fun i => ?_, by simp [lastPg, hp', ih2]⟩
        rw [ih1]
        cases hi : l[i]? with
        | none => rfl
        | some x => cases x <;> simp [prepObj, pgs_succ, cts_succ, hp', hc']

/-- What `prepare` leaves at index `i`. -/
theorem prepare_at (d : Doc) (i : Nat) :
    d.prepare.objs[i]? = (d.prep0.objs[i]?).map (prepObj d.prep0.objs d.prep0.objs.length i) := by
  rw [prepare_eq]
  exact (prepFold_inv d.prep0.objs d.prep0.encId d.prep0.objs.length).1 i

theorem prep0_at (d : Doc) {i : Nat} (hi : i ≠ 0) : d.prep0.objs[i]? =
    (d.objs ++ if d.prot then [Obj.encryption] else [])[i]? := by
  have hm : ∀ x : Doc, x.markOutlines.objs[i]? = x.objs[i]? := by
    intro x
    unfold Doc.markOutlines
    split
    · split
      · simp [Doc.upd, List.getElem?_modify, Ne.symm hi]
      · rfl
    · rfl
  unfold Doc.prep0
  rw [hm]
  cases d.prot <;> simp [Doc.add]

theorem prep0_len (d : Doc) : d.prep0.objs.length = d.objs.length + (if d.prot then 1 else 0) := by
  have := congrArg List.length (prep0_idents d)
  rw [idents_len, List.length_append, idents_len] at this
  rw [this]; cases d.prot <;> rfl

theorem isPg_ident (o : Obj) : o.ident.isPg = o.isPg := by cases o <;> rfl
theorem isCt_ident (o : Obj) : o.ident.isCt = o.isCt := by cases o <;> rfl

theorem pg_ident {l l' : List Obj} {i : Nat} (h : (l.map Obj.ident)[i]? = (l'.map Obj.ident)[i]?) : pg l i = pg l' i := by
  unfold pg
  rw [List.getElem?_map, List.getElem?_map] at h
  cases hl : l[i]? <;> cases hl' : l'[i]? <;> rw [hl, hl'] at h <;> simp at h ⊢
  rw [← isPg_ident, h, isPg_ident]

theorem ct_ident {l l' : List Obj} {i : Nat} (h : (l.map Obj.ident)[i]? = (l'.map Obj.ident)[i]?) : ct l i = ct l' i := by
  unfold ct
  rw [List.getElem?_map, List.getElem?_map] at h
  cases hl : l[i]? <;> cases hl' : l'[i]? <;> rw [hl, hl'] at h <;> simp at h ⊢
  rw [← isCt_ident, h, isCt_ident]

theorem lastPg_congr {l l' : List Obj} {k : Nat} (h : ∀ i < k, pg l i = pg l' i) : lastPg l k = lastPg l' k := by
  induction k with
  | zero => rfl
  | succ k ih =>
    unfold lastPg
    rw [h k (by omega), ih (fun i hi => h i (by omega))]

theorem pgs_congr {l l' : List Obj} {k : Nat} (h : ∀ i < k, pg l i = pg l' i) : pgs l k = pgs l' k := by
  unfold pgs
  apply List.filter_congr
  intro i hi
  exact h i (by simpa using hi)

theorem cts_congr {l l' : List Obj} {p k : Nat} (h : ∀ i < k, pg l i = pg l' i) (h' : ∀ i < k, ct l i = ct l' i) :
    cts l p k = cts l' p k := by
  unfold cts
  apply List.filter_congr
  intro i hi
  have hi : i < k := by simpa using hi
  rw [h' i hi, lastPg_congr (fun j hj => h j (by omega))]

/-- The encryption object added by `prepare` is neither a page nor a content stream. -/
theorem prep0_pg (d : Doc) (i : Nat) : pg d.prep0.objs i = pg d.objs i ∧ ct d.prep0.objs i = ct d.objs i := by
  have h := congrArg (·[i]?) (prep0_idents d)
  rcases Nat.lt_or_ge i d.objs.length with hi | hi
  · rw [List.getElem?_append_left (by rw [idents_len]; exact hi)] at h
    exact ⟨pg_ident h, ct_ident h⟩
  · rw [List.getElem?_append_right (by rw [idents_len]; exact hi)] at h
    have hd : d.objs[i]? = none := List.getElem?_eq_none hi
    have hx : ∀ o, d.prep0.objs[i]? = some o → o.isPg = false ∧ o.isCt = false := by
      intro o ho
      rw [ident_at ho] at h
      have hm : o.ident ∈ (if d.prot then [Obj.encryption] else []) := List.mem_of_getElem? h.symm
      cases hp : d.prot <;> rw [hp] at hm <;> simp at hm
      rw [← isPg_ident, ← isCt_ident, hm]; exact ⟨rfl, rfl⟩
    unfold pg ct
    rw [hd]
    cases ho : d.prep0.objs[i]? with
    | none => exact ⟨rfl, rfl⟩
    | some o => have := hx o ho; simp [this]

/-- All page indices and all content indices of page `p`. -/
def Doc.pgIdx (d : Doc) : List Nat := pgs d.objs d.objs.length
def Doc.ctIdx (d : Doc) (p : Nat) : List Nat := cts d.objs p d.objs.length

theorem pgs_ge (l : List Obj) (n : Nat) : pgs l (l.length + n) = pgs l l.length := by
  induction n with
  | zero => rfl
  | succ n ih =>
    have : pg l (l.length + n) = false := by unfold pg; rw [List.getElem?_eq_none (by omega)]; rfl
    rw [← Nat.add_assoc, pgs_succ, ih, this]; simp

theorem cts_ge (l : List Obj) (p n : Nat) : cts l p (l.length + n) = cts l p l.length := by
  induction n with
  | zero => rfl
  | succ n ih =>
    have : ct l (l.length + n) = false := by unfold ct; rw [List.getElem?_eq_none (by omega)]; rfl
    rw [← Nat.add_assoc, cts_succ, ih, this]; simp

theorem prep0_pgs (d : Doc) : pgs d.prep0.objs d.prep0.objs.length = d.pgIdx := by
  rw [pgs_congr (fun i _ => (prep0_pg d i).1), prep0_len, pgs_ge]; rfl
theorem prep0_cts (d : Doc) (p : Nat) : cts d.prep0.objs p d.prep0.objs.length = d.ctIdx p := by
  rw [cts_congr (fun i _ => (prep0_pg d i).1) (fun i _ => (prep0_pg d i).2), prep0_len, cts_ge]; rfl

/-- `prepare` on a page: its contents are extended by its content streams. -/
theorem prepare_page {d : Doc} {p : Nat} {c a : List Nat} {r : Nat} (h0 : p ≠ 0) (h : d.objs[p]? = some (.page c a r)) :
    d.prepare.objs[p]? = some (.page (c ++ (d.ctIdx p).map (· + 1)) a r) := by
  rw [prepare_at, prep0_at d h0, List.getElem?_append_left (lt_of_get h), h]
  simp [prepObj, prep0_cts]

/-- `prepare` on the page tree: all pages are added. -/
theorem prepare_pages {d : Doc} {k : List Nat} {c : Nat} (h : d.objs[1]? = some (.pages k c)) :
    d.prepare.objs[1]? = some (.pages (k ++ d.pgIdx.map (· + 1)) (c + d.pgIdx.length)) := by
  rw [prepare_at, prep0_at d (by decide), List.getElem?_append_left (lt_of_get h), h]
  simp [prepObj, prep0_pgs]

end Verif.Doc
