import Verif.Lemmas.Doc.Links
import Verif.Lemmas.Doc.Made
import Verif.Props.DocRefs
/- C02 (encryption reference), C14, C38: bookmarks, links and anchors. The vocabulary is in Verif/Spec/DocMarks.lean. -/
namespace Verif.Props
open Doc

private theorem reach (p : Bool) (h : List Op) : Reachable (exec (start p) h) := ⟨p, h, rfl⟩

/-- **C14** The bookmarks a viewer shows are exactly those asked for with AddOutline, in call order, each with its title
and the page added last before the call: following /Next from /First gives the list, following /Prev from /Last gives
it backwards, and /Count is its length. For every history of calls (with any number of compiles), protected or not. -/
theorem outline_list (prot : Bool) (h : List Op) :
    let d := exec (start prot) h
    let marks := askedMarks (start prot) 0 h
    ∃ first last, d.outlineRoot = some (first, last, marks.length) ∧
      ∀ fuel, marks.length ≤ fuel →
        d.followNext fuel first = marks ∧ d.followPrev fuel last = marks.reverse := by
  intro d marks
  obtain ⟨L, hm, he⟩ := exec_marks h (start prot) [] (marks_start prot)
  rw [List.nil_append] at hm
  have he' : L.map (·.2) = marks := he
  have hlen : marks.length = L.length := by rw [← he', List.length_map]
  refine ⟨L.head?.map (·.1 + 1), L.getLast?.map (·.1 + 1), ?_, fun fuel hf => ⟨?_, ?_⟩⟩
  rotate_left 1
  · have := hm.followNext 0 fuel (by omega)
    rw [← List.head?_eq_getElem?] at this
    · rw [this, List.drop_zero, he']
  · have := hm.followPrev L.length fuel (Nat.le_refl _) (by omega)
    rw [List.take_length] at this
    rw [← he', ← this]
    congr 1
    cases hl : L.length with
    | zero => have : L = [] := List.length_eq_zero_iff.1 hl; subst this; rfl
    | succ n => rw [if_neg (by omega), List.getLast?_eq_getElem?, hl]
  · unfold Doc.outlineRoot
    have : d.objAt 3 = d.objs[outlinesIdx]? := rfl
    rw [this, hm.root, hlen]

/-- **C14** Neighbours agree: /Next of a bookmark is a bookmark whose /Prev is the first one, and conversely. -/
theorem outline_neighbours (d : Doc) (hr : Reachable d) (n m : Nat) (t de p : Nat) (pr ne : Option Nat)
    (hn : d.objAt n = some (.outline t de p pr ne)) :
    (ne = some m → ∃ t' de' p' ne', d.objAt m = some (.outline t' de' p' (some n) ne')) ∧
    (pr = some m → ∃ t' de' p' pr', d.objAt m = some (.outline t' de' p' pr' (some n))) := by
  obtain ⟨prot, h, rfl⟩ := hr
  obtain ⟨L, hm, he⟩ := exec_marks h (start prot) [] (marks_start prot)
  rw [List.nil_append] at hm
  obtain ⟨h0, _, h1⟩ := objAt_lt hn
  obtain ⟨k, hk⟩ := List.mem_iff_getElem?.1 (hm.complete _ _ _ _ _ _ h1)
  have hnode := hm.node k _ _ _ hk
  rw [h1] at hnode
  simp only [Option.some.injEq, Obj.outline.injEq, true_and] at hnode
  obtain ⟨_, hpr, hne⟩ := hnode
  have hn1 : n - 1 + 1 = n := by omega
  constructor
  · intro e
    rw [e] at hne
    obtain ⟨q, hq, eq⟩ := Option.map_eq_some_iff.1 hne.symm
    obtain ⟨i, t', de'⟩ := q
    replace eq : i + 1 = m := eq
    have hq' := hm.node _ _ _ _ hq
    rw [if_neg (by omega), Nat.add_sub_cancel, hk] at hq'
    refine ⟨t', de', 2, (L[k + 1 + 1]?).map (·.1 + 1), ?_⟩
    · rw [← eq, objAt_of hq']; simp [hn1]
  · intro e
    rw [e] at hpr
    by_cases hk0 : k = 0
    · rw [if_pos hk0] at hpr; simp at hpr
    · rw [if_neg hk0] at hpr
      obtain ⟨q, hq, eq⟩ := Option.map_eq_some_iff.1 hpr.symm
      obtain ⟨i, t', de'⟩ := q
      replace eq : i + 1 = m := eq
      have hq' := hm.node _ _ _ _ hq
      have hkk : k - 1 + 1 = k := by omega
      rw [hkk, hk] at hq'
      refine ⟨t', de', 2, if k - 1 = 0 then none else (L[k - 1 - 1]?).map (·.1 + 1), ?_⟩
      · rw [← eq, objAt_of hq']; simp [hn1]

/-- **C14** /Parent is wrong: every bookmark of every document names object 2, the page tree, instead of the outline
root, object 3 (outlines_obj.go 57 passes the 0-based index). -/
theorem outline_parent_fails (d : Doc) (hr : Reachable d) (n t de p : Nat) (pr ne : Option Nat)
    (hn : d.objAt n = some (.outline t de p pr ne)) :
    p = 2 ∧ (d.objAt 2).map Obj.kind = some .pageTree ∧ (d.objAt 3).map Obj.kind = some .outlineRoot := by
  have b := reachable_base hr
  obtain ⟨h0, _, h1⟩ := objAt_lt hn
  refine ⟨?_, ?_, ?_⟩
  · rcases reachable_obj hr h1 with ⟨_, e⟩ | ⟨_, e⟩ | ⟨_, e⟩ | ⟨_, e⟩ | ⟨_, e⟩
    · simp [Obj.kind] at e
    · simp [Obj.kind] at e
    · simp [Obj.kind] at e
    · simp [Obj.kind] at e
    · exact e
  · obtain ⟨x, h1, h2⟩ := ok_of_ident (k := "") (i := 1) b.b1 rfl
    rw [show d.objAt 2 = some x from h1]; exact congrArg some h2
  · obtain ⟨x, h1, h2⟩ := ok_of_ident (k := "") (i := outlinesIdx) b.b2 rfl
    rw [show d.objAt 3 = some x from h1]; exact congrArg some h2

example : askedMarks (start true) 0 demoHistory = [(21, 10), (22, 27)] ∧
    demo.outlineRoot = some (some 26, some 29, 2) ∧ demo.followNext 5 (some 26) = [(21, 10), (22, 27)] := by
  decide +kernel

private theorem links_start (p : Bool) : Links [] (start p) where
  pages := by cases p <;> decide +kernel
  node := by simp
  cur := rfl
  annot := by simp

/-- **C38** The annotations of the pages are exactly those asked for: the k-th page (in the order of AddPage, which is the
order of /Kids) carries one annotation for every AddExternalLink/AddInternalLink made while it was the last page, in
call order, and no other; SetPage does not change that. For every history of calls. -/
theorem links_on_pages (prot : Bool) (h : List Op) :
    let d := exec (start prot) h
    d.pageNums.map d.pageLinks = (askedLinks [] h).map (·.map some) := by
  intro d
  obtain ⟨P, hl, he⟩ := exec_links h (start prot) (reach prot []) [] (links_start prot)
  have : targets P = askedLinks [] h := he
  rw [hl.read, this]

/-- **C38** The destination of an internal link is the page added last and the height of the last SetAnchor with its name,
whether that call came before or after the link: it is a function of the anchor calls of the whole history. -/
theorem link_destination (prot : Bool) (h : List Op) (name : Nat) :
    (exec (start prot) h).linkDest name = askedAnchor (start prot) 0 name none h := exec_anchor h (start prot) name

/-- **C38** A link needs a page: before the first AddPage the call panics and changes nothing. -/
theorem link_without_page (d : Doc) (a : Nat) (h : d.curPage = none) :
    step d .externalLink = (d, .panic) ∧ step d (.internalLink a) = (d, .panic) := by
  simp [step, Doc.addLink, h]

/-- **C38** A link on a page always succeeds, even if no anchor of that name is ever set: then it prints no destination at
all (annot_obj.go 49-52) and nothing is reported. -/
theorem unknown_anchor_fails : ∃ h : List Op, outcomes (start false) h = [.ok, .ok, .ok] ∧
    (exec (start false) h).linkDest 1 = none ∧
    ∃ n, (exec (start false) h).pageNums.map (exec (start false) h).pageLinks = [[some (some 1)]] ∧
      (exec (start false) h).objAt n = some (.annot (some 1)) ∧ refs (exec (start false) h) (.annot (some 1)) = [] := by
  refine ⟨[.addPage, .internalLink 1, .compile], by decide +kernel, by decide +kernel, 6, by decide +kernel, by decide +kernel,
    by decide +kernel⟩

example : askedLinks [] demoHistory = [[some 1, some 2, none], []] ∧
    askedAnchor (start true) 0 1 none demoHistory = some (10, 100) ∧
    askedAnchor (start false) 0 1 none [.addPage, .internalLink 1, .setAnchor 1 7, .addPage, .setAnchor 1 9] = some (7, 9) := by
  decide +kernel

/-- **C02** With protection, the number printed after /Encrypt (`encId`) is the number of the encryption dictionary in the
compiled file; without protection there is no encryption dictionary and nothing is printed. For every history ending
with a compile. -/
theorem encrypt_reference (prot : Bool) (h : List Op) :
    let d := exec (start prot) (h ++ [.compile])
    (prot = true → d.objAt d.encId = some .encryption) ∧
    (prot = false → d.encId = 0 ∧ ∀ n o, d.objAt n = some o → o.kind ≠ .encryption) := by
  intro d
  have hd : d = (exec (start prot) h).prepare := by simp only [d, exec_append]; rfl
  constructor
  · intro hp
    have := prepare_enc (d := exec (start prot) h) ((exec_enc prot h).1.trans hp)
    rw [hd, this.1]
    exact objAt_of this.2
  · intro hp
    obtain ⟨h1, h2⟩ := (exec_enc prot (h ++ [.compile])).2 hp
    refine ⟨h1, fun n o hn => ?_⟩
    obtain ⟨_, _, hi⟩ := objAt_lt hn
    have := h2 _ (List.mem_of_getElem? (ident_at hi))
    rwa [kind_ident] at this

example : demo.encId = 30 ∧ demo.objAt 30 = some .encryption := by decide +kernel

end Verif.Props
