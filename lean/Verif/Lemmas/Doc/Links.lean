import Verif.Lemmas.Doc.Outline
import Verif.Lemmas.Doc.Layout
namespace Verif.Doc

/-- What matters for links: a page's annotations, an annotation's target. -/
def Obj.linkv : Obj → Option (List Nat ⊕ Option Nat)
  | .page _ ls _ => some (.inl ls)
  | .annot a => some (.inr a)
  | _ => none

theorem linkv_blind : Blind Obj.linkv false := by
  constructor <;> intros <;> first | rfl | (next o => cases o <;> rfl) | (next e o => cases o <;> rfl)

def SameLinks (d d' : Doc) : Prop := ∃ n, d'.objs.map Obj.linkv = d.objs.map Obj.linkv ++ List.replicate n none

theorem SameLinks.get {d d' : Doc} (h : SameLinks d d') {n : Nat} {o : Obj} {x : List Nat ⊕ Option Nat}
    (hn : d.objAt n = some o) (ho : o.linkv = some x) : ∃ o', d'.objAt n = some o' ∧ o'.linkv = some x := by
  obtain ⟨k, e⟩ := h
  unfold Doc.objAt at hn ⊢
  split at hn
  · simp at hn
  · next h0 =>
    rw [if_neg h0]
    have hi := lt_of_get hn
    have : (d'.objs.map Obj.linkv)[n - 1]? = some (some x) := by
      rw [e, List.getElem?_append_left (by simpa using hi), List.getElem?_map, hn]
      simp [ho]
    rw [List.getElem?_map, Option.map_eq_some_iff] at this
    exact this

theorem linkv_page {o : Obj} {ls : List Nat} (h : o.linkv = some (.inl ls)) : ∃ cs r, o = .page cs ls r := by
  cases o <;> simp [Obj.linkv] at h
  subst h; exact ⟨_, _, rfl⟩
theorem linkv_annot {o : Obj} {a : Option Nat} (h : o.linkv = some (.inr a)) : o = .annot a := by
  cases o <;> simp [Obj.linkv] at h
  subst h; rfl

theorem addOutline_sameLinks (d : Doc) (t : Nat) : SameLinks d (d.addOutline t) := by
  refine ⟨1, ?_⟩
  have h1 : (markObjs d t).map Obj.linkv = d.objs.map Obj.linkv ++ [none] := by
    unfold markObjs
    rw [map_modify' _ (by intro o; cases o <;> rfl)]
    simp [Obj.linkv]
  cases hl : d.lastOutline with
  | none => rw [addOutline_none t hl, h1]; rfl
  | some j => rw [addOutline_some t hl, map_modify' _ (by intro o; cases o <;> rfl), h1]; rfl

/-- The pages with their links; `P` lists (page number, [(annotation number, target)]). -/
structure Links (P : List (Nat × List (Nat × Option Nat))) (d : Doc) : Prop where
  pages : d.pageNums = P.map (·.1)
  node : ∀ x ∈ P, ∃ cs r, d.objAt x.1 = some (.page cs (x.2.map (·.1)) r)
  cur : d.curPage.map (· + 1) = P.getLast?.map (·.1)
  annot : ∀ x ∈ P, ∀ y ∈ x.2, d.objAt y.1 = some (.annot y.2)

theorem Links.same {P : List (Nat × List (Nat × Option Nat))} {d d' : Doc} (h : Links P d) (hs : SameLinks d d')
    (hp : d'.pageNums = d.pageNums) (hc : d'.curPage = d.curPage) : Links P d' where
  pages := hp.trans h.pages
  node := fun x hx => by
    obtain ⟨cs, r, e⟩ := h.node x hx
    obtain ⟨o', e1, e2⟩ := hs.get e rfl
    obtain ⟨cs', r', rfl⟩ := linkv_page e2
    exact ⟨cs', r', e1⟩
  cur := by rw [hc]; exact h.cur
  annot := fun x hx y hy => by
    obtain ⟨o', e1, e2⟩ := hs.get (h.annot x hx y hy) rfl
    rw [linkv_annot e2] at e1
    exact e1

/-- The targets asked for. -/
def targets (P : List (Nat × List (Nat × Option Nat))) : List (List (Option Nat)) := P.map (fun x => x.2.map (·.2))

theorem objAt_lt {d : Doc} {n : Nat} {o : Obj} (h : d.objAt n = some o) : 0 < n ∧ n < d.nextID ∧ d.objs[n - 1]? = some o := by
  unfold Doc.objAt at h
  split at h
  · simp at h
  · next h0 => have := lt_of_get h; unfold Doc.nextID; exact ⟨by omega, by omega, h⟩

theorem objAt_of {d : Doc} {i : Nat} {o : Obj} (h : d.objs[i]? = some o) : d.objAt (i + 1) = some o := by
  simp [Doc.objAt, h]

theorem Links.addPage {P : List (Nat × List (Nat × Option Nat))} {d : Doc} (hr : Reachable d) (h : Links P d) :
    Links (P ++ [(d.nextID, [])]) d.addPage := by
  have hold : ∀ {n : Nat} {o : Obj}, d.objAt n = some o → d.addPage.objAt n = some o := by
    intro n o hn
    obtain ⟨h0, h1, h2⟩ := objAt_lt hn
    unfold Doc.objAt
    rw [if_neg (by omega)]
    show (d.objs ++ [_])[n - 1]? = _
    rw [List.getElem?_append_left (lt_of_get h2), h2]
  constructor
  · have := step_pageNums hr .addPage
    rw [if_pos rfl] at this
    have h2 : (step d .addPage).1 = d.addPage := rfl
    rw [h2] at this
    rw [this, h.pages]; simp
  · intro x hx
    rcases List.mem_append.1 hx with hx | hx
    · obtain ⟨cs, r, e⟩ := h.node x hx
      exact ⟨cs, r, hold e⟩
    · simp at hx; subst hx
      refine ⟨[], procIdx + 1, ?_⟩
      show d.addPage.objAt (d.objs.length + 1) = _
      apply objAt_of
      show (d.objs ++ [_])[d.objs.length]? = _
      simp
  · simp [Doc.addPage, Doc.nextID]
  · intro x hx y hy
    rcases List.mem_append.1 hx with hx | hx
    · exact hold (h.annot x hx y hy)
    · simp at hx; subst hx; simp at hy

theorem Links.addLink {P : List (Nat × List (Nat × Option Nat))} {d : Doc} (hr : Reachable d) (h : Links P d) (a : Option Nat) :
    Links (P.modify (P.length - 1) (fun x => (x.1, x.2 ++ [(d.nextID, a)]))) (d.addLink a).1 := by
  have hnums : (d.addLink a).1.pageNums = d.pageNums := by
    cases a with
    | none => have := step_pageNums hr .externalLink; rw [if_neg (by simp), List.append_nil] at this; exact this
    | some a => have := step_pageNums hr (.internalLink a); rw [if_neg (by simp), List.append_nil] at this; exact this
  cases hc : d.curPage with
  | none =>
    have : P = [] := by
      have := h.cur; rw [hc] at this
      simpa using this.symm
    subst this
    simp only [Doc.addLink, hc, List.modify_nil]
    exact h
  | some p =>
    have hcur := h.cur
    rw [hc] at hcur
    obtain ⟨last, hlast, e⟩ := Option.map_eq_some_iff.1 hcur.symm
    replace e : last.1 = p + 1 := e
    obtain ⟨Q, hQ⟩ := List.getLast?_eq_some_iff.1 hlast
    subst hQ
    have hmod : (Q ++ [last]).modify ((Q ++ [last]).length - 1) (fun x => (x.1, x.2 ++ [(d.nextID, a)])) =
        Q ++ [(last.1, last.2 ++ [(d.nextID, a)])] := by
      have : (Q ++ [last]).length - 1 = Q.length := by simp
      rw [this]
      clear * -
      induction Q with
      | nil => simp
      | cons x Q ih => simpa using ih
    rw [hmod]
    have hobjs : (d.addLink a).1.objs = (d.objs ++ [Obj.annot a]).modify p (Obj.addLinkId (d.objs.length + 1)) := by
      simp [Doc.addLink, hc, Doc.upd, Doc.add]
    have hnd : (Q.map (·.1)).Nodup ∧ last.1 ∉ Q.map (·.1) := by
      have hn : d.pageNums.Nodup := by
        unfold Doc.pageNums
        apply List.Pairwise.filter
        rw [List.pairwise_map]
        exact List.nodup_range.imp (fun h => by simpa using h)
      rw [h.pages, List.map_append, List.nodup_append] at hn
      refine ⟨hn.1, fun hm => ?_⟩
      exact hn.2.2 last.1 hm last.1 (by simp) rfl
    have hother : ∀ {n : Nat} {o : Obj}, d.objAt n = some o → n ≠ p + 1 → (d.addLink a).1.objAt n = some o := by
      intro n o hn hne
      obtain ⟨h0, h1, h2⟩ := objAt_lt hn
      unfold Doc.objAt
      rw [if_neg (by omega), hobjs, getElem?_modify_ne _ (by omega), List.getElem?_append_left (lt_of_get h2), h2]
    obtain ⟨cs, r, el⟩ := h.node last (by simp)
    have hnode : (d.addLink a).1.objAt (p + 1) = some (.page cs (last.2.map (·.1) ++ [d.nextID]) r) := by
      apply objAt_of
      rw [e] at el
      obtain ⟨_, _, h2⟩ := objAt_lt el
      simp only [Nat.add_sub_cancel] at h2
      rw [hobjs, getElem?_modify_eq, List.getElem?_append_left (lt_of_get h2), h2]
      rfl
    have hnew : (d.addLink a).1.objAt d.nextID = some (.annot a) := by
      apply objAt_of
      rw [e] at el
      obtain ⟨_, h1, _⟩ := objAt_lt el
      unfold Doc.nextID at h1
      rw [hobjs, getElem?_modify_ne _ (by omega)]
      simp
    constructor
    · rw [hnums, h.pages]; simp
    · intro x hx
      rcases List.mem_append.1 hx with hx | hx
      · obtain ⟨cs, r, e1⟩ := h.node x (by simp [hx])
        exact ⟨cs, r, hother e1 (by rw [← e]; intro he; exact hnd.2 (he ▸ List.mem_map.2 ⟨x, hx, rfl⟩))⟩
      · simp at hx; subst hx
        exact ⟨cs, r, by rw [e, hnode]; simp⟩
    · simp [e]
      rw [addLink_fields]; simp [hc]
    · intro x hx y hy
      have old : ∀ z : Nat × Option Nat, d.objAt z.1 = some (.annot z.2) → (d.addLink a).1.objAt z.1 = some (.annot z.2) := by
        intro z hz
        refine hother hz ?_
        intro he
        rw [he, ← e, el] at hz
        simp at hz
      rcases List.mem_append.1 hx with hx | hx
      · exact old y (h.annot x (by simp [hx]) y hy)
      · simp at hx; subst hx
        rcases List.mem_append.1 hy with hy | hy
        · exact old y (h.annot last (by simp) y hy)
        · simp at hy; subst hy; exact hnew

theorem targets_modify (P : List (Nat × List (Nat × Option Nat))) (k n : Nat) (a : Option Nat) :
    targets (P.modify k (fun x => (x.1, x.2 ++ [(n, a)]))) = (targets P).modify k (· ++ [a]) := by
  unfold targets
  induction P generalizing k with
  | nil => simp
  | cons x P ih => cases k with
    | zero => simp
    | succ k => simp [ih]

theorem exec_links (h : List Op) (d : Doc) (hr : Reachable d) (P : List (Nat × List (Nat × Option Nat))) (hl : Links P d) :
    ∃ P', Links P' (exec d h) ∧ targets P' = askedLinks (targets P) h := by
  induction h generalizing d P with
  | nil => exact ⟨P, hl, rfl⟩
  | cons op h ih =>
    have hr' : Reachable (step d op).1 := by
      obtain ⟨p, ops, rfl⟩ := hr
      exact ⟨p, ops ++ [op], by rw [exec_append]; rfl⟩
    by_cases hs : op.structural = false
    · have g := step_gext linkv_blind d op hs (Or.inr rfl)
      have hne : op ≠ .addPage := by rintro rfl; simp [Op.structural] at hs
      have hp : (step d op).1.pageNums = d.pageNums := by rw [step_pageNums hr, if_neg hne, List.append_nil]
      obtain ⟨P', h1, h2⟩ := ih _ hr' P (hl.same g.objs hp g.curPage)
      refine ⟨P', h1, ?_⟩
      rw [h2]
      cases op <;> first | rfl | simp [Op.structural] at hs
    · have hlen : (targets P).length = P.length := by simp [targets]
      cases op <;> simp [Op.structural] at hs
      · obtain ⟨P', h1, h2⟩ := ih _ hr' _ (hl.addPage hr)
        refine ⟨P', h1, ?_⟩
        rw [h2]; simp [askedLinks, targets]
      · obtain ⟨P', h1, h2⟩ := ih _ hr' _ (hl.addLink hr none)
        refine ⟨P', h1, ?_⟩
        rw [h2, targets_modify]; simp [askedLinks, hlen]
      · next a =>
        obtain ⟨P', h1, h2⟩ := ih _ hr' _ (hl.addLink hr (some a))
        refine ⟨P', h1, ?_⟩
        rw [h2, targets_modify]; simp [askedLinks, hlen]
      · next n y =>
        obtain ⟨P', h1, h2⟩ := ih _ hr' _ ⟨hl.pages, hl.node, hl.cur, hl.annot⟩
        exact ⟨P', h1, h2⟩
      · next t =>
        have hp : (step d (.addOutline t)).1.pageNums = d.pageNums := by rw [step_pageNums hr]; simp
        have hc : (step d (.addOutline t)).1.curPage = d.curPage := by
          show (d.addOutline t).curPage = _; rw [addOutline_fields]
        obtain ⟨P', h1, h2⟩ := ih _ hr' P (hl.same (addOutline_sameLinks d t) hp hc)
        exact ⟨P', h1, h2⟩

theorem Links.read {P : List (Nat × List (Nat × Option Nat))} {d : Doc} (h : Links P d) :
    d.pageNums.map d.pageLinks = (targets P).map (·.map some) := by
  rw [h.pages, targets, List.map_map, List.map_map]
  apply List.map_congr_left
  intro x hx
  obtain ⟨cs, r, e⟩ := h.node x hx
  simp only [Function.comp, Doc.pageLinks, e, List.map_map]
  apply List.map_congr_left
  intro y hy
  simp [Function.comp, h.annot x hx y hy]

/-- Anchors. -/
theorem exec_anchor (h : List Op) (d : Doc) (name : Nat) :
    (exec d h).linkDest name = askedAnchor d d.curPageId name (d.linkDest name) h := by
  induction h generalizing d with
  | nil => rfl
  | cons op h ih =>
    simp only [exec]
    rw [ih, step_curPageId]
    by_cases hs : op.structural = false
    · have g := step_gext linkv_blind d op hs (Or.inr rfl)
      have hd : (step d op).1.linkDest name = d.linkDest name := by unfold Doc.linkDest; rw [g.anchors]
      rw [hd]
      cases op <;> first | rfl | simp [Op.structural] at hs
    · have hl : ∀ a, (d.addLink a).1.linkDest name = d.linkDest name := by
        intro a; rw [addLink_fields]; rfl
      cases op <;> simp [Op.structural] at hs
      · rfl
      · rw [show (step d .externalLink).1.linkDest name = _ from hl _]; rfl
      · rw [show (step d (.internalLink _)).1.linkDest name = _ from hl _]; rfl
      · next a y =>
        simp only [askedAnchor]
        congr 1
        by_cases ha : a = name
        · simp [step, Doc.linkDest, assoc, ha, Doc.curPageId]; rfl
        · simp [step, Doc.linkDest, assoc, ha]
      · next t =>
        have : (step d (.addOutline t)).1.linkDest name = d.linkDest name := by
          show (d.addOutline t).linkDest name = _; rw [addOutline_fields]; rfl
        rw [this]; rfl

end Verif.Doc
