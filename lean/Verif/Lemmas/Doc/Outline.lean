import Verif.Lemmas.Doc.Blind
import Verif.Spec.DocMarks
namespace Verif.Doc

/-- The bookmark objects. -/
def Obj.outv : Obj → Option Obj
  | .outline t d p pr ne => some (.outline t d p pr ne)
  | .outlines f l c => some (.outlines f l c)
  | _ => none

theorem outv_some {o x : Obj} (h : o.outv = some x) : x = o := by
  cases o <;> simp [Obj.outv] at h <;> exact h.symm

theorem outv_blind : Blind Obj.outv false := by
  constructor <;> intros <;> first | rfl | (next o => cases o <;> rfl) | (next e o => cases o <;> rfl)

/-- The same bookmark objects. -/
def SameMarks (d d' : Doc) : Prop :=
  (∃ n, d'.objs.map Obj.outv = d.objs.map Obj.outv ++ List.replicate n none) ∧ d'.lastOutline = d.lastOutline

theorem SameMarks.get {d d' : Doc} (h : SameMarks d d') {i : Nat} {o : Obj} (ho : o.outv = some o) :
    d'.objs[i]? = some o ↔ d.objs[i]? = some o := by
  obtain ⟨⟨n, e⟩, _⟩ := h
  have key : ∀ l : List Obj, l[i]? = some o ↔ (l.map Obj.outv)[i]? = some (some o) := by
    intro l
    rw [List.getElem?_map]
    constructor
    · intro h; rw [h]; simp [ho]
    · intro h
      cases hl : l[i]? with
      | none => rw [hl] at h; simp at h
      | some x => rw [hl] at h; simp at h; rw [← outv_some h]
  rw [key, key, e]
  rcases Nat.lt_or_ge i (d.objs.map Obj.outv).length with hi | hi
  · rw [List.getElem?_append_left hi]
  · rw [List.getElem?_append_right hi, List.getElem?_eq_none hi]
    simp [List.getElem?_replicate]

theorem step_same (d : Doc) (op : Op) (h : ∀ t, op ≠ .addOutline t) : SameMarks d (step d op).1 := by
  by_cases hs : op.structural = false
  · have := step_gext outv_blind d op hs (Or.inr rfl)
    exact ⟨this.objs, this.lastOutline⟩
  · have hlink : ∀ a, SameMarks d (d.addLink a).1 := by
      intro a
      unfold Doc.addLink
      split
      · exact ⟨⟨0, by simp⟩, rfl⟩
      · next p _ =>
        refine ⟨⟨1, ?_⟩, rfl⟩
        simp only [Doc.upd]
        rw [map_modify' _ (by intro o; cases o <;> rfl)]
        simp [Doc.add, Obj.outv]
    cases op <;> simp [Op.structural] at hs
    · exact ⟨⟨1, by simp [step, Doc.addPage, Doc.add, Obj.outv]⟩, rfl⟩
    · exact hlink _
    · exact hlink _
    · exact ⟨⟨0, by simp [step]⟩, rfl⟩
    · exact absurd rfl (h _)

/-- The bookmarks form one list; `L` lists them as (index, title, destination). -/
structure Marks (L : List (Nat × Nat × Nat)) (d : Doc) : Prop where
  inc : L.Pairwise (fun a b => a.1 < b.1)
  root : d.objs[outlinesIdx]? = some (.outlines (L.head?.map (·.1 + 1)) (L.getLast?.map (·.1 + 1)) L.length)
  last : d.lastOutline = L.getLast?.map (·.1)
  node : ∀ (k i t de : Nat), L[k]? = some (i, t, de) → d.objs[i]? = some (.outline t de 2
    (if k = 0 then none else (L[k - 1]?).map (·.1 + 1)) ((L[k + 1]?).map (·.1 + 1)))
  complete : ∀ (i : Nat) t de p pr ne, d.objs[i]? = some (.outline t de p pr ne) → (i, t, de) ∈ L

theorem Marks.same {L : List (Nat × Nat × Nat)} {d d' : Doc} (h : Marks L d) (hs : SameMarks d d') : Marks L d' where
  inc := h.inc
  root := (hs.get rfl).2 h.root
  last := hs.2.trans h.last
  node := fun k i t de hk => (hs.get rfl).2 (h.node k i t de hk)
  complete := fun i t de p pr ne hi => h.complete i t de p pr ne ((hs.get rfl).1 hi)

theorem getElem?_modify_ne {α : Type} (l : List α) {i j : Nat} (h : i ≠ j) (f : α → α) : (l.modify i f)[j]? = l[j]? := by
  rw [List.getElem?_modify]; simp [h]
theorem getElem?_modify_eq {α : Type} (l : List α) (i : Nat) (f : α → α) : (l.modify i f)[i]? = (l[i]?).map f := by
  rw [List.getElem?_modify]; simp

/-- The objects after AddOutline. -/
def markObjs (d : Doc) (t : Nat) : List Obj :=
  (d.objs ++ [Obj.outline t d.curPageId 2 (d.lastOutline.map (· + 1)) none]).modify outlinesIdx
    (Obj.addOutlineId (d.objs.length + 1))

theorem addOutline_none {d : Doc} (t : Nat) (h : d.lastOutline = none) : (d.addOutline t).objs = markObjs d t := by
  unfold Doc.addOutline; rw [h]; simp [markObjs, h, Doc.upd, Doc.add]
theorem addOutline_some {d : Doc} (t : Nat) {j : Nat} (h : d.lastOutline = some j) :
    (d.addOutline t).objs = (markObjs d t).modify j (Obj.setNext (d.objs.length + 1)) := by
  unfold Doc.addOutline; rw [h]; simp [markObjs, h, Doc.upd, Doc.add]

theorem addOutline_get {d : Doc} (t : Nat) (h2 : outlinesIdx < d.objs.length)
    (hl : ∀ j, d.lastOutline = some j → j < d.objs.length ∧ j ≠ outlinesIdx) :
    (d.addOutline t).objs[d.objs.length]? = some (.outline t d.curPageId 2 (d.lastOutline.map (· + 1)) none) ∧
    (d.addOutline t).objs[outlinesIdx]? = (d.objs[outlinesIdx]?).map (Obj.addOutlineId (d.objs.length + 1)) ∧
    (∀ j, d.lastOutline = some j → (d.addOutline t).objs[j]? = (d.objs[j]?).map (Obj.setNext (d.objs.length + 1))) ∧
    (∀ x : Nat, x ≠ d.objs.length → x ≠ outlinesIdx → d.lastOutline ≠ some x → (d.addOutline t).objs[x]? = d.objs[x]?) := by
  have m1 : (markObjs d t)[d.objs.length]? = some (.outline t d.curPageId 2 (d.lastOutline.map (· + 1)) none) := by
    unfold markObjs; rw [getElem?_modify_ne _ (by omega)]; simp
  have m2 : (markObjs d t)[outlinesIdx]? = (d.objs[outlinesIdx]?).map (Obj.addOutlineId (d.objs.length + 1)) := by
    unfold markObjs; rw [getElem?_modify_eq, List.getElem?_append_left h2]
  have m3 : ∀ x : Nat, x ≠ d.objs.length → x ≠ outlinesIdx → (markObjs d t)[x]? = d.objs[x]? := by
    intro x hx h2
    unfold markObjs; rw [getElem?_modify_ne _ (Ne.symm h2)]
    rcases Nat.lt_or_ge x d.objs.length with hi | hi
    · rw [List.getElem?_append_left hi]
    · rw [List.getElem?_eq_none hi, List.getElem?_eq_none (by simp; omega)]
  cases hlo : d.lastOutline with
  | none =>
    rw [addOutline_none t hlo]
    rw [hlo] at m1
    exact ⟨m1, m2, by simp, fun x h1 h2 _ => m3 x h1 h2⟩
  | some j =>
    rw [addOutline_some t hlo]
    obtain ⟨hj1, hj2⟩ := hl j hlo
    rw [hlo] at m1
    refine ⟨?_, ?_, ?_, ?_⟩
    · rw [getElem?_modify_ne _ (by omega), m1]
    · rw [getElem?_modify_ne _ hj2, m2]
    · intro j' e; cases e; rw [getElem?_modify_eq, m3 _ (by omega) hj2]
    · intro x h1 h2 h3
      rw [getElem?_modify_ne _ (by intro e; exact h3 (by rw [e])), m3 _ h1 h2]

theorem Marks.addOutline {L : List (Nat × Nat × Nat)} {d : Doc} (h : Marks L d) (t : Nat) :
    Marks (L ++ [(d.objs.length, t, d.curPageId)]) (d.addOutline t) := by
  have hlen2 : outlinesIdx < d.objs.length := lt_of_get h.root
  have hlt : ∀ (k i t de : Nat), L[k]? = some (i, t, de) → i < d.objs.length := fun k i t de hk => lt_of_get (h.node k i t de hk)
  have hne2 : ∀ (k i t de : Nat), L[k]? = some (i, t, de) → i ≠ outlinesIdx := by
    intro k i t de hk e
    have := h.node k i t de hk
    rw [e, h.root] at this
    simp at this
  have hlast : ∀ j, d.lastOutline = some j → ∃ tj dj, L[L.length - 1]? = some (j, tj, dj) ∧ 0 < L.length := by
    intro j hj
    rw [h.last, Option.map_eq_some_iff] at hj
    obtain ⟨⟨j', tj, dj⟩, hg, rfl⟩ := hj
    rw [List.getLast?_eq_getElem?] at hg
    exact ⟨tj, dj, hg, by have := lt_of_get hg; omega⟩
  have hinj : ∀ (k k' i t de t' de' : Nat), L[k]? = some (i, t, de) → L[k']? = some (i, t', de') → k = k' := by
    have hp := List.pairwise_iff_getElem.1 h.inc
    have : ∀ (k k' i t de t' de' : Nat), L[k]? = some (i, t, de) → L[k']? = some (i, t', de') → ¬ k < k' := by
      intro k k' i t de t' de' h1 h2 hlt
      obtain ⟨hk, e1⟩ := List.getElem?_eq_some_iff.1 h1
      obtain ⟨hk', e2⟩ := List.getElem?_eq_some_iff.1 h2
      have := hp k k' hk hk' hlt
      rw [e1, e2] at this
      simp at this
    intro k k' i t de t' de' h1 h2
    have a := this k k' i t de t' de' h1 h2
    have b := this k' k i t' de' t de h2 h1
    omega
  obtain ⟨g1, g2, g3, g4⟩ := addOutline_get (d := d) t hlen2 (fun j hj => by
    obtain ⟨tj, dj, hg, _⟩ := hlast j hj
    exact ⟨hlt _ _ _ _ hg, hne2 _ _ _ _ hg⟩)
  constructor
  · rw [List.pairwise_append]
    refine ⟨h.inc, by simp, ?_⟩
    intro a ha b hb
    simp at hb; subst hb
    obtain ⟨k, hk⟩ := List.getElem?_of_mem ha
    exact hlt k a.1 a.2.1 a.2.2 hk
  · rw [g2, h.root]
    cases L with
    | nil => simp [Obj.addOutlineId]
    | cons a l =>
      have : (a :: (l ++ [(d.objs.length, t, d.curPageId)])).getLast? = some (d.objs.length, t, d.curPageId) := by
        rw [← List.cons_append, List.getLast?_concat]
      simp [Obj.addOutlineId, this]
  · simp [Doc.addOutline]
  · intro k i t' de hk
    rcases Nat.lt_or_ge k L.length with hlk | hge
    · rw [List.getElem?_append_left hlk] at hk
      have hn := h.node k i t' de hk
      have hprev : (if k = 0 then none else ((L ++ [(d.objs.length, t, d.curPageId)])[k - 1]?).map (fun x => x.1 + 1)) =
          (if k = 0 then none else (L[k - 1]?).map (fun x => x.1 + 1)) := by
        rw [List.getElem?_append_left (by omega)]
      by_cases hkl : k + 1 = L.length
      · have hj : d.lastOutline = some i := by
          rw [h.last, List.getLast?_eq_getElem?]
          have : L.length - 1 = k := by omega
          rw [this, hk]; rfl
        rw [g3 i hj, hn, hprev]
        have : (L ++ [(d.objs.length, t, d.curPageId)])[k + 1]? = some (d.objs.length, t, d.curPageId) := by
          rw [hkl]; simp
        rw [this]
        simp [Obj.setNext]
      · have hj : d.lastOutline ≠ some i := by
          intro e
          obtain ⟨tj, dj, hg, _⟩ := hlast i e
          have := hinj _ _ _ _ _ _ _ hk hg
          omega
        rw [g4 i (by have := hlt _ _ _ _ hk; omega) (hne2 _ _ _ _ hk) hj, hn, hprev,
          List.getElem?_append_left (by omega)]
    · have hkl : k = L.length := by
        have := lt_of_get hk; simp at this; omega
      subst hkl
      simp at hk
      obtain ⟨rfl, rfl, rfl⟩ := hk
      rw [g1]
      congr 1
      rw [h.last]
      have h0 : (L ++ [(d.objs.length, t, d.curPageId)])[L.length + 1]? = none := by simp
      rw [h0]
      by_cases hz : L.length = 0
      · have : L = [] := List.length_eq_zero_iff.1 hz
        subst this; simp
      · rw [if_neg hz, List.getElem?_append_left (by omega), List.getLast?_eq_getElem?]
        simp [Option.map_map, Function.comp_def]
  · intro i t' de p pr ne hi
    by_cases hin : i = d.objs.length
    · subst hin; rw [g1] at hi; simp at hi
      obtain ⟨rfl, rfl, _⟩ := hi
      simp
    · by_cases hi2 : i = outlinesIdx
      · subst hi2; rw [g2, h.root] at hi; simp [Obj.addOutlineId] at hi
      · apply List.mem_append_left
        by_cases hj : d.lastOutline = some i
        · obtain ⟨tj, dj, hg, _⟩ := hlast i hj
          rw [g3 i hj, h.node _ _ _ _ hg] at hi
          simp [Obj.setNext] at hi
          obtain ⟨rfl, rfl, _⟩ := hi
          exact List.mem_of_getElem? hg
        · rw [g4 i hin hi2 hj] at hi
          exact h.complete _ _ _ _ _ _ hi

theorem marks_start (p : Bool) : Marks [] (start p) := by
  constructor
  · simp
  · rfl
  · rfl
  · simp
  · intro i t de p pr ne hi
    match i with
    | 0 | 1 | 2 | 3 => simp [start] at hi
    | _ + 4 => simp [start] at hi

/-- The current page as a number. -/
theorem step_curPageId (d : Doc) (op : Op) :
    (step d op).1.curPageId = if op = .addPage then d.nextID else d.curPageId := by
  by_cases hs : op.structural = false
  · have := (step_gext outv_blind d op hs (Or.inr rfl)).curPage
    unfold Doc.curPageId
    rw [this]
    cases op <;> first | rfl | simp [Op.structural] at hs
  · have hl : ∀ a, (d.addLink a).1.curPageId = d.curPageId := by
      intro a; rw [addLink_fields]; rfl
    cases op <;> simp [Op.structural] at hs
    · rfl
    · exact hl _
    · exact hl _
    · rfl
    · simp only [step]; rw [addOutline_fields]; rfl

theorem exec_marks (h : List Op) (d : Doc) (L : List (Nat × Nat × Nat)) (hm : Marks L d) :
    ∃ L', Marks (L ++ L') (exec d h) ∧ L'.map (·.2) = askedMarks d d.curPageId h := by
  induction h generalizing d L with
  | nil => exact ⟨[], by simpa [exec] using hm, rfl⟩
  | cons op h ih =>
    by_cases ho : ∃ t, op = .addOutline t
    · obtain ⟨t, rfl⟩ := ho
      obtain ⟨L', h1, h2⟩ := ih (d.addOutline t) _ (hm.addOutline t)
      refine ⟨(d.objs.length, t, d.curPageId) :: L', ?_, ?_⟩
      · simpa [exec, step] using h1
      · have hc : (d.addOutline t).curPageId = d.curPageId := by rw [addOutline_fields]; rfl
        rw [hc] at h2
        simp [askedMarks, step, h2]
    · have hne : ∀ t, op ≠ .addOutline t := fun t e => ho ⟨t, e⟩
      obtain ⟨L', h1, h2⟩ := ih (step d op).1 L (hm.same (step_same d op hne))
      refine ⟨L', h1, ?_⟩
      rw [h2, step_curPageId]
      by_cases hp : op = .addPage
      · subst hp; rfl
      · rw [if_neg hp]
        cases op <;> first | rfl | exact absurd rfl hp | exact absurd rfl (hne _)

theorem Marks.followNext {L : List (Nat × Nat × Nat)} {d : Doc} (h : Marks L d) (k fuel : Nat) (hf : L.length ≤ k + fuel) :
    d.followNext fuel ((L[k]?).map (·.1 + 1)) = (L.drop k).map (·.2) := by
  induction fuel generalizing k with
  | zero => rw [List.drop_eq_nil_of_le (by omega)]; simp [Doc.followNext]
  | succ fuel ih =>
    cases hk : L[k]? with
    | none =>
      have := List.getElem?_eq_none_iff.1 hk
      rw [List.drop_eq_nil_of_le this]; simp [Doc.followNext]
    | some x =>
      obtain ⟨i, t, de⟩ := x
      have hn := h.node k i t de hk
      obtain ⟨hlt, e⟩ := List.getElem?_eq_some_iff.1 hk
      rw [List.drop_eq_getElem_cons hlt, e]
      simp only [Option.map_some, Doc.followNext, Doc.objAt, Nat.add_one_ne_zero, if_false, Nat.add_sub_cancel, hn,
        List.map_cons]
      rw [ih (k + 1) (by omega)]

theorem Marks.followPrev {L : List (Nat × Nat × Nat)} {d : Doc} (h : Marks L d) (k fuel : Nat) (hk : k ≤ L.length)
    (hf : k ≤ fuel) :
    d.followPrev fuel (if k = 0 then none else (L[k - 1]?).map (·.1 + 1)) = ((L.take k).map (·.2)).reverse := by
  induction k generalizing fuel with
  | zero => cases fuel <;> simp [Doc.followPrev]
  | succ k ih =>
    cases fuel with
    | zero => omega
    | succ fuel =>
      have hlt : k < L.length := by omega
      obtain ⟨⟨i, t, de⟩, hx⟩ : ∃ x, L[k] = x := ⟨_, rfl⟩
      have hg : L[k]? = some (i, t, de) := by rw [List.getElem?_eq_getElem hlt, hx]
      have hn := h.node k i t de hg
      simp only [Nat.add_one_ne_zero, if_false, Nat.add_sub_cancel, hg, Option.map_some, Doc.followPrev, Doc.objAt, hn]
      rw [ih fuel (by omega) (by omega), List.take_add_one, hg]
      simp

end Verif.Doc
