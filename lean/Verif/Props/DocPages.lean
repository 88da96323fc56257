import Verif.Lemmas.Doc.Layout
import Verif.Props.DocRefs
/- C05-C08: the page tree, compiling twice, what is drawn where, SetPage. The vocabulary (`pageTree`, `pageIds`,
`pageText`, `layout`, `drawn`) is in Verif/Spec/DocPages.lean. -/
namespace Verif.Props
open Doc

private theorem reachable_exec (p : Bool) (h : List Op) : Reachable (exec (start p) h) := ⟨p, h, rfl⟩

theorem exec_pageNums (h : List Op) (d : Doc) (hd : Reachable d) :
    (exec d h).pageNums = d.pageNums ++ pageIds d h ∧ (pageIds d h).length = h.count .addPage := by
  induction h generalizing d with
  | nil => simp [exec, pageIds]
  | cons op h ih =>
    have hr : Reachable (step d op).1 := by
      obtain ⟨p, ops, rfl⟩ := hd
      exact ⟨p, ops ++ [op], by rw [exec_append]; rfl⟩
    obtain ⟨h1, h2⟩ := ih _ hr
    simp only [exec]
    rw [h1, step_pageNums hd]
    by_cases hop : op = .addPage
    · subst hop; simp [pageIds, h2]
    · have : pageIds d (op :: h) = pageIds (step d op).1 h := by
        cases op <;> first | exact absurd rfl hop | rfl
      rw [this]
      simp [hop, h2, List.count_cons]

/-- **C05** After the first compile, /Kids lists the pages in the order of the AddPage calls (the number announced before
each call), each once, and /Count is the number of AddPage calls, which is also GetNumberOfPages; for every history of
calls without an earlier compile, protected or not. -/
theorem page_tree_first_compile (prot : Bool) (h : List Op) (hc : Op.compile ∉ h) :
    let d := exec (start prot) (h ++ [.compile])
    d.pageTree = some (pageIds (start prot) h, h.count .addPage) ∧ d.numPages = h.count .addPage ∧
    (pageIds (start prot) h).Nodup ∧ ∀ n ∈ pageIds (start prot) h, (d.objAt n).map Obj.kind = some .page := by
  intro d
  have hd : d = (exec (start prot) h).prepare := by simp only [d, exec_append]; rfl
  have hr := reachable_exec prot h
  have b := reachable_base hr
  have f := exec_fresh prot h hc
  obtain ⟨h1, h2⟩ := exec_pageNums h (start prot) (reachable_exec prot [])
  have h0 : (start prot).pageNums = [] := by cases prot <;> decide +kernel
  rw [h0, List.nil_append] at h1
  have hnum : (exec (start prot) h).numPages = h.count .addPage := by rw [numPages_eq hr, h1, h2]
  refine ⟨?_, ?_, ?_, ?_⟩
  · obtain ⟨k, c, hk⟩ : ∃ k c, (exec (start prot) h).objs[1]? = some (.pages k c) := by
      have hb := b.b1
      unfold Doc.idents at hb
      rw [List.getElem?_map] at hb
      cases ho : (exec (start prot) h).objs[1]? with
      | none => rw [ho] at hb; simp at hb
      | some o =>
        rw [ho] at hb
        simp at hb
        cases o <;> simp [Obj.ident] at hb
        exact ⟨_, _, rfl⟩
    have hbl := f _ (List.mem_of_getElem? hk)
    simp [Obj.tree, Blank] at hbl
    obtain ⟨rfl, rfl⟩ := hbl
    unfold Doc.pageTree
    have : d.objAt 2 = d.objs[1]? := rfl
    rw [this, hd, prepare_pages hk]
    simp only [List.nil_append, Nat.zero_add]
    rw [← pageNums_eq, h1, ← h2]
    have : (exec (start prot) h).pgIdx.length = (pageIds (start prot) h).length := by
      rw [← h1, pageNums_eq, List.length_map]
    rw [this]
  · rw [hd, prepare_fields]; exact hnum
  · rw [← h1]
    unfold Doc.pageNums
    apply List.Pairwise.filter
    rw [List.pairwise_map]
    exact List.nodup_range.imp (fun h => by simpa using h)
  · intro n hn
    rw [← h1] at hn
    unfold Doc.pageNums at hn
    simp only [List.mem_filter, decide_eq_true_eq] at hn
    obtain ⟨o, ho, hk⟩ := Option.map_eq_some_iff.1 hn.2
    obtain ⟨o', h3, _, h4⟩ := object_numbers_stable (exec (start prot) h) [.compile] n o ho
    have : d = exec (exec (start prot) h) [.compile] := by simp only [d, exec_append]
    rw [this, h3]
    simp [h4, hk]

example : Op.compile ∉ demoHistory.dropLast ∧ pageIds (start true) demoHistory.dropLast = [10, 27] := by decide +kernel

/-- **C07** What a reader finds on the pages of the compiled document is exactly what was drawn on them: the streams of
the k-th page in /Kids, one after the other, are the successful drawing calls made between the k-th AddPage and the
next one, in call order, and nothing else. For every history without SetPage (see `set_page_selects`) and without an
earlier compile; calls made before the first page are on no page. -/
theorem pages_show_what_was_drawn (prot : Bool) (h : List Op) (hc : Op.compile ∉ h) (hs : ∀ k, Op.setPage k ∉ h) :
    let d := exec (start prot) (h ++ [.compile])
    ∃ kids n, d.pageTree = some (kids, n) ∧ kids.map d.pageText = drawn [] (h.zip (outcomes (start prot) h)) := by
  intro d
  have hd : d = (exec (start prot) h).prepare := by simp only [d, exec_append]; rfl
  have hr := reachable_exec prot h
  have b := reachable_base hr
  refine ⟨_, _, (page_tree_first_compile prot h hc).1, ?_⟩
  obtain ⟨h1, _⟩ := exec_pageNums h (start prot) (reachable_exec prot [])
  have h0 : (start prot).pageNums = [] := by cases prot <;> decide +kernel
  rw [h0, List.nil_append, pageNums_eq] at h1
  rw [← h1, List.map_map, hd]
  have := prepare_texts b (exec_fresh prot h hc)
  simp only [Function.comp_def]
  rw [this, layout_eq]
  exact exec_groups h hs (Base.start prot).cv (Or.inl rfl)

example : (∀ k, Op.setPage k ∉ demoHistory.dropLast) ∧
    drawn [] (demoHistory.dropLast.zip (outcomes (start true) demoHistory.dropLast)) = [[7, 8, 9, 10, 12], [13, 14]] := by
  constructor
  · intro k; simp [demoHistory]
  · decide +kernel

/-- **C07** Each call changes the pages' contents only as it should, in every reachable state (SetPage included):
AddPage adds an empty page, a call that draws nothing or fails changes no page, and a successful drawing call adds its
mark at the end of one page only (none, if the stream selected was created before the first page). -/
theorem page_content_changes (d : Doc) (h : Reachable d) (op : Op) :
    (op = .addPage → (step d op).1.layout = d.layout ++ [[]]) ∧
    (op ≠ .addPage → (op.tag? = none ∨ (step d op).2 ≠ .ok) → (step d op).1.layout = d.layout) ∧
    (∀ t, op.tag? = some t → (step d op).2 = .ok → (step d op).1.layout = d.layout ∨
      ∃ k, k < d.layout.length ∧ (step d op).1.layout = d.layout.modify k (· ++ [t])) := by
  have b := reachable_base h
  have o := reachable_one h
  simp only [layout_eq]
  have hset : ∀ k, (step d (.setPage k)).1.view.items = d.view.items := by
    intro k; show (d.setPage k).1.view.items = _; rw [setPage_fields]; rfl
  refine ⟨?_, ?_, ?_⟩
  · rintro rfl
    rcases step_view b.cv .addPage with ⟨_, hv, _⟩ | ⟨k, e⟩ | ⟨t, e, _⟩ | ⟨e, _⟩
    · rw [hv]; simp only [groups, groupsFrom_append]; rfl
    · simp at e
    · simp [Op.tag?] at e
    · exact absurd rfl e
  · intro hop hno
    rcases step_view b.cv op with ⟨e, _, _⟩ | ⟨k, rfl⟩ | ⟨t, ht, hcv, hd⟩ | ⟨_, _, hv, _⟩
    · exact absurd e hop
    · rw [hset]
    · rcases hno with hno | hno
      · rw [ht] at hno; simp at hno
      · rcases hd with ⟨ho, _⟩ | ⟨_, hv | hv⟩
        · exact absurd ho hno
        · rw [hv]
        · rw [hv, groups_touch]
    · rw [hv]
  · intro t ht hok
    rcases step_view b.cv op with ⟨rfl, _, _⟩ | ⟨k, rfl⟩ | ⟨t', ht', hcv, hd⟩ | ⟨_, e, _⟩
    · simp [Op.tag?] at ht
    · simp [Op.tag?] at ht
    · rw [ht] at ht'
      simp at ht'
      subst ht'
      rcases hd with ⟨_, hv⟩ | ⟨ho, _⟩
      · rw [hv]
        have o' := o.touch
        have hcur : ∃ r, d.view.touch.cur = some r := by
          unfold View.touch; cases hcu : d.view.cur with
          | none => exact ⟨_, rfl⟩
          | some i => exact ⟨i, hcu⟩
        obtain ⟨r, hr⟩ := hcur
        obtain ⟨ts, hts⟩ := o'.cur r hr
        have := groups_draw hts (fun ts' => o'.alone r ts ts' hts) t
        rw [groups_touch] at this
        unfold View.draw
        rw [hr]
        exact this
      · exact absurd hok ho
    · rw [ht] at e; simp at e

/-- **C08** SetPage selects the page with the given number, if every page has been drawn on (as many content streams as
pages) and nothing was drawn before the first page: SetPage(k) succeeds exactly for 1 ≤ k ≤ GetNumberOfPages, and then
the next successful drawing call, whatever it is, is added at the end of the k-th page and changes no other page.
The conditions are needed: pages not drawn on yet (`set_page_empty_page_fails`) and drawing before the first page
(`set_page_early_drawing_fails`), for which the claim is false. -/
theorem set_page_selects (d : Doc) (h : Reachable d) (hfull : d.contentNums.length = d.numPages)
    (hfirst : ∀ c ∈ d.contentNums, ∃ p ∈ d.pageNums, p < c) (k : Nat) :
    ((step d (.setPage k)).2 = .ok ↔ 1 ≤ k ∧ k ≤ d.numPages) ∧
    ((step d (.setPage k)).2 ≠ .ok → step d (.setPage k) = (d, .err)) ∧
    (1 ≤ k → k ≤ d.numPages → ∀ op t, op.tag? = some t → (step (step d (.setPage k)).1 op).2 = .ok →
      (step (step d (.setPage k)).1 op).1.layout = d.layout.modify (k - 1) (· ++ [t])) := by
  have b := reachable_base h
  have hp := numPages_eq h
  rw [hp] at hfull
  obtain ⟨tss, hi⟩ := reachable_inter h hfull hfirst
  obtain ⟨hs, hn⟩ := @findContent_spec k 0 0 d.objs
  have hnone : findContent k 0 0 d.objs = none ↔ ¬ (1 ≤ k ∧ k ≤ d.numPages) := by
    rw [hn, ← contentNums_len, hfull, hp]; omega
  have hcase : (∃ i, findContent k 0 0 d.objs = some i) ↔ (1 ≤ k ∧ k ≤ d.numPages) := by
    cases hf : findContent k 0 0 d.objs with
    | none => simp; have := hnone.1 hf; omega
    | some i => simp; by_contra hh; rw [hnone.2 hh] at hf; simp at hf
  refine ⟨?_, ?_, ?_⟩
  · rw [← hcase]
    simp only [step, Doc.setPage]
    cases hf : findContent k 0 0 d.objs <;> simp
  · simp only [step, Doc.setPage]
    cases hf : findContent k 0 0 d.objs <;> simp
  · intro h1 h2 op t ht hok
    obtain ⟨i, hf⟩ := hcase.2 ⟨h1, h2⟩
    obtain ⟨j, es, e1, e2, e3⟩ := hs i hf
    have hst : (step d (.setPage k)).1 = { d with content := some i } := by simp [step, Doc.setPage, hf]
    have hr : Reachable (step d (.setPage k)).1 := by
      obtain ⟨p, ops, rfl⟩ := h
      exact ⟨p, ops ++ [.setPage k], by rw [exec_append]; rfl⟩
    have b' := reachable_base hr
    rw [layout_eq, layout_eq]
    rcases step_view b'.cv op with ⟨rfl, _, _⟩ | ⟨k, rfl⟩ | ⟨t', ht', hcv, hd⟩ | ⟨_, e, _⟩
    · simp [Op.tag?] at ht
    · simp [Op.tag?] at ht
    · rw [ht] at ht'
      simp at ht'
      subst ht'
      rcases hd with ⟨_, hv⟩ | ⟨ho, _⟩
      · rw [hv, hst]
        have hcur : ({ d with content := some i } : Doc).view = ⟨inter tss, some (rank d.its i), d.numPages⟩ := by
          rw [← hi]; rfl
        have hpos : rank d.its i = 2 * (k - 1) + 1 := by
          have hget : d.view.items[rank d.its i]? = some (.content (es.map (·.tag))) :=
            rank_get (by simp only [Nat.zero_add] at e1; subst e1; simp [Doc.its, e2, Obj.item])
          rw [hi] at hget
          have h3 := inter_pos tss _ _ hget
          rw [← hi] at h3
          have h4 : d.view.items.take (rank d.its i) = ((d.objs.take i).map Obj.item).filterMap id := by
            show (d.its.filterMap id).take _ = _
            rw [take_rank, Doc.its, List.map_take]
          rw [h4, (len_filter_items _).1] at h3
          simp only [Nat.zero_add] at e1 e3
          subst e1
          omega
        rw [hcur, hpos, hi]
        show groups ((inter tss).modify (2 * (k - 1) + 1) (Item.addTag t)) = _
        rw [inter_modify]
        unfold groups
        rw [groupsFrom_inter, groupsFrom_inter]
        rfl
      · exact absurd hok ho
    · rw [ht] at e; simp at e

/-- The hypotheses hold of the demo document (two pages, both drawn on). -/
example : demo.contentNums.length = demo.numPages ∧ (∀ c ∈ demo.contentNums, ∃ p ∈ demo.pageNums, p < c) ∧
    demo.numPages = 2 ∧ (step (step demo (.setPage 1)).1 (.draw 99 true)).1.layout = [[7, 8, 9, 10, 12, 99], [13, 14]] := by
  decide +kernel

/-- **C08** With an empty first page, SetPage(1) succeeds but drawing goes to the second page, and SetPage(2) fails
although there are two pages. -/
theorem set_page_empty_page_fails : ∃ d : Doc, Reachable d ∧ d.numPages = 2 ∧ (step d (.setPage 1)).2 = .ok ∧
    (step (step d (.setPage 1)).1 (.draw 99 true)).1.layout = [[], [5, 99]] ∧ (step d (.setPage 2)).2 = .err :=
  ⟨exec (start false) [.addPage, .addPage, .draw 5 true], ⟨_, _, rfl⟩, by decide +kernel⟩

/-- **C08** If something was set before the first page (e.g. SetLineWidth), SetPage(1) succeeds but what is drawn then is
on no page, and SetPage(3) succeeds although there are two pages. -/
theorem set_page_early_drawing_fails : ∃ d : Doc, Reachable d ∧ d.numPages = 2 ∧ (step d (.setPage 1)).2 = .ok ∧
    (step (step d (.setPage 1)).1 (.draw 99 true)).1.layout = d.layout ∧ (step d (.setPage 3)).2 = .ok :=
  ⟨exec (start false) [.draw 1 false, .addPage, .draw 5 true, .addPage, .draw 6 true], ⟨_, _, rfl⟩, by decide +kernel⟩

private theorem tree_some {d : Doc} (h : Reachable d) : ∃ k c, d.objs[1]? = some (.pages k c) := by
  have hb := (reachable_base h).b1
  unfold Doc.idents at hb
  rw [List.getElem?_map] at hb
  cases ho : d.objs[1]? with
  | none => rw [ho] at hb; simp at hb
  | some o =>
    rw [ho] at hb
    simp at hb
    cases o <;> simp [Obj.ident] at hb
    exact ⟨_, _, rfl⟩

/-- **C06** What each compile does to the page tree, in any reachable state: all pages are appended to /Kids again and
counted again. So a document is written correctly by its first compile only. -/
theorem compile_appends_all_pages (d : Doc) (h : Reachable d) : ∃ kids n, d.pageTree = some (kids, n) ∧
    (step d .compile).1.pageTree = some (kids ++ d.pageNums, n + d.pageNums.length) := by
  obtain ⟨k, c, hk⟩ := tree_some h
  refine ⟨k, c, ?_, ?_⟩
  · unfold Doc.pageTree
    have : d.objAt 2 = d.objs[1]? := rfl
    rw [this, hk]
  · unfold Doc.pageTree
    have : (step d .compile).1.objAt 2 = d.prepare.objs[1]? := rfl
    rw [this, prepare_pages hk]
    simp [pageNums_eq]

/-- **C06** Compiling again does not keep the page tree: for every document with a page, a second compile leaves /Kids
with every page listed twice and /Count doubled, whatever the history (without an earlier compile). -/
theorem compile_twice_fails (prot : Bool) (h : List Op) (hc : Op.compile ∉ h) :
    (exec (start prot) (h ++ [.compile, .compile])).pageTree =
      some (pageIds (start prot) h ++ pageIds (start prot) h, h.count .addPage + h.count .addPage) := by
  have h1 := (page_tree_first_compile prot h hc).1
  obtain ⟨kids, n, e1, e2⟩ := compile_appends_all_pages (exec (start prot) (h ++ [.compile])) ⟨prot, _, rfl⟩
  rw [h1] at e1
  simp at e1
  obtain ⟨rfl, rfl⟩ := e1
  obtain ⟨h3, h4⟩ := exec_pageNums (h ++ [.compile]) (start prot) ⟨prot, [], rfl⟩
  have h0 : (start prot).pageNums = [] := by cases prot <;> decide +kernel
  rw [h0, List.nil_append] at h3
  have hcnt : (h ++ [Op.compile]).count .addPage = h.count .addPage := by simp [List.count_append]
  have hids : ∀ (d : Doc) (l : List Op), pageIds d (l ++ [.compile]) = pageIds d l := by
    intro d l
    induction l generalizing d with
    | nil => rfl
    | cons op l ih => cases op <;> simp [pageIds, ih]
  rw [hids] at h3 h4
  rw [hcnt] at h4
  have : exec (start prot) (h ++ [.compile, .compile]) = (step (exec (start prot) (h ++ [.compile])) .compile).1 := by
    have : h ++ [Op.compile, Op.compile] = (h ++ [.compile]) ++ [.compile] := by simp
    rw [this, exec_append]; rfl
  rw [this, e2, h3, h4]

example : (exec (start false) [.addPage, .draw 1 true, .compile, .compile]).pageTree = some ([5, 5], 2) ∧
    (exec (start false) [.addPage, .draw 1 true, .compile, .compile]).pageText 5 = [1, 1] := by decide +kernel

/-- **C06** What does survive a compile, in every state: object numbers, content streams, resources, fonts, images,
graphics states, annotations, bookmarks; only the catalog, the page tree and the pages' /Contents are rewritten, and a
protected document gets one more object, an encryption dictionary, at the end. -/
theorem compile_keeps (d : Doc) (n : Nat) (o : Obj) (ho : d.objAt n = some o)
    (hk : o.kind ≠ .catalog ∧ o.kind ≠ .pageTree ∧ o.kind ≠ .page) :
    (step d .compile).1.objAt n = some o ∧ (step d .compile).1.nextID = d.nextID + (if d.prot then 1 else 0) := by
  unfold Doc.objAt at ho ⊢
  split at ho
  · simp at ho
  · next h0 =>
    rw [if_neg h0]
    refine ⟨?_, ?_⟩
    · have hkeep : keep o = o := by cases o <;> simp [Obj.kind] at hk <;> rfl
      have hpl : Plain o := by
        intro x hx
        cases x <;> simp [keep] at hx <;> subst hx <;> simp_all [Obj.kind]
      exact prepare_get hpl hkeep ho
    · have := congrArg List.length (prepare_idents d)
      rw [idents_len, List.length_append, idents_len] at this
      show d.prepare.objs.length + 1 = _
      rw [this]
      unfold Doc.nextID
      cases d.prot <;> simp

end Verif.Props
