import Verif.Lemmas.Doc.New
/- C03, C04: object numbers and references, and the resource names used in the streams. The vocabulary (`objAt`, `refs`,
`FromRoot`, `Denotes`) is in Verif/Spec/DocRefs.lean. -/
namespace Verif.Props
open Doc

/-- A document using most features, for the non-vacuity examples. -/
def demoHistory : List Op :=
  [.addFont 1 0 true, .addPage, .setFont 1 0, .text 7, .image 8 ⟨5, some (true, true)⟩,
   .setTransparency ⟨500, false, 0⟩, .cell 9 (some ⟨250, false, 1⟩),
   .imageOpt 10 ⟨6, some (false, false)⟩ none (some (⟨11, some (true, false)⟩, none)),
   .addColorSpace 3, .setColorSpace 12 3, .setAnchor 1 100, .internalLink 1, .internalLink 2, .externalLink,
   .addOutline 21, .addPage, .draw 13 true, .addOutline 22, .image 14 ⟨5, some (true, true)⟩, .compile]

def demo : Doc := exec (start true) demoHistory

theorem demo_reachable : Reachable demo := ⟨true, demoHistory, rfl⟩

private theorem label_ident (o : Obj) : o.ident.label = o.label := by
  cases o <;> first | rfl | (next x => cases x <;> rfl)

/-- **C03** Object numbers are stable: whatever calls follow, the object printed under a number stays of the same kind
with the same keys. -/
theorem object_numbers_stable (d : Doc) (h : List Op) (n : Nat) (o : Obj) (hn : d.objAt n = some o) :
    ∃ o', (exec d h).objAt n = some o' ∧ o'.label = o.label ∧ o'.kind = o.kind := by
  unfold Doc.objAt at hn
  split at hn
  · simp at hn
  · next h0 =>
    have h1 := prefix_get (exec_ext d h) (ident_at hn)
    unfold Doc.idents at h1
    rw [List.getElem?_map] at h1
    cases ho : (exec d h).objs[n - 1]? with
    | none => rw [ho] at h1; simp at h1
    | some o' =>
      rw [ho] at h1
      simp at h1
      refine ⟨o', by simp [Doc.objAt, h0, ho], ?_, ?_⟩
      · rw [← label_ident, h1, label_ident]
      · rw [← kind_ident, h1, kind_ident]

/-- **C03** The numbers in use are exactly 1 .. GetNextObjectID-1: no gaps, and the number announced is free. -/
theorem object_numbers_gapless (d : Doc) (n : Nat) : (d.objAt n).isSome = true ↔ 1 ≤ n ∧ n < d.nextID := by
  unfold Doc.objAt Doc.nextID
  split
  · simp_all
  · simp; omega

/-- **C03** The number announced by GetNextObjectID is the number of the object created next: the page of AddPage, the
annotation of a link, the bookmark of AddOutline, the image of a first drawing, the colour space, the first of the
imported objects; and AddTTFFont numbers its five objects from there. -/
theorem next_id_is_used (d : Doc) :
    (∃ o, (step d .addPage).1.objAt d.nextID = some o ∧ o.kind = .page) ∧
    (∀ t, ∃ o, (step d (.addOutline t)).1.objAt d.nextID = some o ∧ o.kind = .outlineItem) ∧
    (∀ a, d.curPage.isSome = true → ∃ o, (step d (.internalLink a)).1.objAt d.nextID = some o ∧ o.kind = .annotation) ∧
    (d.curPage.isSome = true → ∃ o, (step d .externalLink).1.objAt d.nextID = some o ∧ o.kind = .annotation) ∧
    (∀ n, ∃ o, (step d (.addColorSpace n)).1.objAt d.nextID = some o ∧ o.kind = .colorSpace) ∧
    (∀ n k, k < n → ∃ o, (step d (.importObjects n)).1.objAt (d.nextID + k) = some o ∧ o.kind = .imported) ∧
    (∀ f s, ∃ o, (step d (.addFont f s true)).1.objAt (d.nextID + 4) = some o ∧ o.kind = .font) := by
  have key : ∀ (d' : Doc) (k : Nat) (o : Obj), d'.idents[d.objs.length + k]? = some o →
      ∃ x, d'.objAt (d.nextID + k) = some x ∧ x.kind = o.kind := by
    intro d' k o h
    obtain ⟨x, h1, h2⟩ := ok_of_ident (k := "") (w := o.kind) h rfl
    refine ⟨x, ?_, h2⟩
    rw [← h1]; simp only [Doc.nextID]; congr 1; omega
  have lst : ∀ (o : Obj) (d' : Doc), Ext (d.add o) d' → d'.idents[d.objs.length + 0]? = some o.ident :=
    fun o d' h => prefix_get h (ident_last d o)
  have kid : ∀ (o : Obj) (d' : Doc), Ext (d.add o) d' → ∃ x, d'.objAt d.nextID = some x ∧ x.kind = o.kind := by
    intro o d' h
    obtain ⟨x, h1, h2⟩ := key d' 0 _ (lst o d' h)
    exact ⟨x, h1, by rw [h2, kind_ident]⟩
  refine ⟨kid (.page [] [] (procIdx + 1)) _ (Ext.of_eq rfl), ?_, ?_, ?_, ?_, ?_, ?_⟩
  · intro t
    refine kid (.outline t d.curPageId 2 (d.lastOutline.map (· + 1)) none) _ ?_
    show Ext _ (d.addOutline t)
    unfold Doc.addOutline
    simp only []
    have k1 := Ext.upd (d.add (.outline t d.curPageId 2 (d.lastOutline.map (· + 1)) none)) outlinesIdx _
      (Obj.ident_addOutlineId (d.objs.length + 1))
    split
    · exact k1
    · next j _ => exact k1.trans (Ext.upd _ j _ (Obj.ident_setNext (d.objs.length + 1)))
  · intro a hp
    obtain ⟨p, hp⟩ := Option.isSome_iff_exists.1 hp
    refine kid (.annot (some a)) _ ?_
    simp only [step, Doc.addLink, hp]
    exact Ext.upd _ p _ (Obj.ident_addLinkId _)
  · intro hp
    obtain ⟨p, hp⟩ := Option.isSome_iff_exists.1 hp
    refine kid (.annot none) _ ?_
    simp only [step, Doc.addLink, hp]
    exact Ext.upd _ p _ (Obj.ident_addLinkId _)
  · intro n
    simp only [step, Doc.addColorSpace]
    split
    · exact kid (.colorSpace n 0) _ (Ext.refl _)
    · exact kid (.colorSpace n d.csCount) _ (Ext.upd _ procIdx _ (Obj.ident_addCSRel _))
  · intro n k hk
    refine key _ k .imported ?_
    simp only [step, Doc.idents, List.map_append]
    rw [List.getElem?_append_right (by simp)]
    simp [Obj.ident, hk]
  · intro f s
    have : ∃ c, ((step d (.addFont f s true)).1).idents[d.objs.length + 4]? =
        some (.font f s c (d.objs.length + 3) d.objs.length) := by
      simp only [step, if_true, Doc.addFont]
      split
      · next hc =>
        refine ⟨d.fontCount, ?_⟩
        show (Doc.upd _ procIdx _).idents[_]? = _
        rw [idents_upd _ _ _ (Obj.ident_addFontRel _)]
        simp only [idents_add, List.append_assoc]
        rw [List.getElem?_append_right (by rw [idents_len]; omega)]
        simp [idents_len, Obj.ident]
      · next hc =>
        refine ⟨0, ?_⟩
        simp only [idents_add, List.append_assoc]
        rw [List.getElem?_append_right (by rw [idents_len]; omega)]
        simp [idents_len, Obj.ident]
    obtain ⟨c, hc⟩ := this
    exact key _ 4 _ hc

example : demo.nextID = 31 ∧ ((step demo .addPage).1.objAt 31).map Obj.kind = some .page := by decide +kernel

/-- The outline parent entry excepted, every reference printed by an object resolves, given the three conditions the
code does not enforce. -/
private theorem refs_ok {d : Doc} (h : Reachable d)
    (hmask : ∀ id m s r, Obj.image id m s r ∈ d.objs → ¬ (m.isMask = true ∧ m.indexed = true))
    (hanchor : ∀ a p y, (a, (p, y)) ∈ d.anchors → p ≠ none)
    (hout : ∀ t de p pr ne, Obj.outline t de p pr ne ∈ d.objs → de ≠ 0)
    {i : Nat} {o : Obj} (ho : d.objs[i]? = some o) (himg : o.kind = .imageXObject → ∃ id, (id, i) ∈ d.imgs) :
    ∀ r ∈ refs d o, (r.key ≠ "OutlineParent" → r.ok d) ∧ (r.key = "OutlineParent" → r.num = 2) ∧
      (r.want = .imageXObject → ∃ id, (id, r.num - 1) ∈ d.imgs) := by
  have wf := reachable_wf h i o ho
  have b := reachable_base h
  intro r hr
  cases o with
  | image id m s rgb =>
    have hw : r.want ≠ .imageXObject := by
      simp only [refs, List.mem_append] at hr
      rcases hr with hr | hr <;> split at hr <;> simp at hr <;> subst hr <;> simp
    have hkey : r.key ≠ "OutlineParent" := by
      simp only [refs, List.mem_append] at hr
      rcases hr with hr | hr <;> split at hr <;> simp at hr <;> subst hr <;> simp
    refine ⟨fun _ => ?_, fun hk => absurd hk hkey, fun hk => absurd hk hw⟩
    obtain ⟨id', hm⟩ := himg rfl
    obtain ⟨m', s', r', h1, h2⟩ := reachable_imgs h id' i hm
    rw [ho] at h1
    simp at h1
    obtain ⟨rfl, rfl, rfl, rfl⟩ := h1
    have hnm := hmask id m s rgb (List.mem_of_getElem? ho)
    simp only [refs, List.mem_append] at hr
    rcases hr with hr | hr
    · split at hr
      · next hc =>
        simp only [Bool.and_eq_true, Bool.not_eq_true'] at hc
        simp at hr; subst hr
        cases s with
        | none => exact absurd rfl ((h2 hc.1.1).1 hc.2)
        | some j => exact wf _ (by simp [core])
      · simp at hr
    · split at hr
      · next hc =>
        simp at hr; subst hr
        have hmk : m.isMask = false := by
          cases hh : m.isMask with
          | false => rfl
          | true => exact absurd ⟨hh, hc⟩ hnm
        cases rgb with
        | none => exact absurd rfl ((h2 hmk).2 hc)
        | some j => exact wf _ (by simp [core])
      · simp at hr
  | annot a =>
    cases a with
    | none => simp [refs] at hr
    | some a =>
      simp only [refs] at hr
      cases ha : assoc d.anchors a with
      | none => rw [ha] at hr; simp at hr
      | some py =>
        obtain ⟨p, y⟩ := py
        rw [ha] at hr
        simp at hr
        have hm := assoc_mem ha
        cases p with
        | none => exact absurd rfl (hanchor a none y hm)
        | some p =>
          subst hr
          refine ⟨fun _ => ok_of_ident (b.anchors a p y hm) rfl, by simp, by simp⟩
  | outline t de p pr ne =>
    have hde := hout t de p pr ne (List.mem_of_getElem? ho)
    simp only [refs, List.mem_cons, List.mem_append] at hr
    rcases hr with rfl | rfl | hr
    · refine ⟨fun hk => absurd rfl hk, fun _ => ?_, by simp⟩
      rcases reachable_obj h ho with ⟨_, e⟩ | ⟨_, e⟩ | ⟨_, e⟩ | ⟨_, e⟩ | ⟨_, e⟩
      · simp [Obj.kind] at e
      · simp [Obj.kind] at e
      · simp [Obj.kind] at e
      · simp [Obj.kind] at e
      · exact e
    · exact ⟨fun _ => wf _ (by simp [core, hde]), by simp, by simp⟩
    · refine ⟨fun _ => wf r (by simp only [core, List.mem_append]; exact Or.inr hr), ?_, ?_⟩
      · rcases hr with hr | hr <;> · obtain ⟨x, _, rfl⟩ := List.mem_map.1 hr; simp
      · rcases hr with hr | hr <;> · obtain ⟨x, _, rfl⟩ := List.mem_map.1 hr; simp
  | procset fs cs xs gs =>
    have hi : i = procIdx := by
      rcases reachable_obj h ho with ⟨_, e⟩ | ⟨_, e⟩ | ⟨_, e⟩ | ⟨e, _⟩ | ⟨_, e⟩
      · simp [Obj.kind] at e
      · simp [Obj.kind] at e
      · simp [Obj.kind] at e
      · exact e
      · exact absurd e id
    subst hi
    have hx : d.relXobjs = xs := (rel_of_proc ho).2.2.1
    refine ⟨fun _ => wf r hr, ?_, ?_⟩
    · intro hk
      exfalso
      simp only [refs, List.mem_append] at hr
      rcases hr with ((hr | hr) | hr) | hr <;> · obtain ⟨x, _, rfl⟩ := List.mem_map.1 hr; simp at hk
    · intro hk
      simp only [refs, List.mem_append] at hr
      rcases hr with ((hr | hr) | hr) | hr <;> obtain ⟨x, hxm, rfl⟩ := List.mem_map.1 hr <;> simp at hk
      rw [← hx, (reachable_res h).xobjs] at hxm
      obtain ⟨p, hp, rfl⟩ := List.mem_map.1 hxm
      exact ⟨p.1, by simpa using hp⟩
  | extGS k =>
    cases k with
    | alpha _ _ => simp [refs] at hr
    | smask m =>
      have hr' := hr
      simp [refs] at hr'
      subst hr'
      exact ⟨fun _ => wf _ hr, by simp, by simp⟩
  | _ =>
    have hkw : r.key ≠ "OutlineParent" ∧ r.want ≠ .imageXObject := by
      first
      | (simp [refs] at hr; done)
      | (simp [refs] at hr; grind)
    exact ⟨fun _ => wf r hr, fun hk => absurd hk hkw.1, fun hk => absurd hk hkw.2⟩

/-- **C04** No dangling references: starting from the trailer's /Root and following references, every object reached
exists, and every reference it prints (except /Parent of bookmarks, see `outline_parent_fails`) names an existing
object of the kind the position requires, at any time in any history of calls, compiled or not, protected or not. What
the code does not enforce is assumed: no palette image was first used as a mask (`indexed_mask_fails`), anchors and
bookmarks were set on a page (`early_anchor_fails`, `early_outline_fails`). -/
theorem no_dangling (d : Doc) (h : Reachable d)
    (hmask : ∀ id m s r, Obj.image id m s r ∈ d.objs → ¬ (m.isMask = true ∧ m.indexed = true))
    (hanchor : ∀ a p y, (a, (p, y)) ∈ d.anchors → p ≠ none)
    (hout : ∀ t de p pr ne, Obj.outline t de p pr ne ∈ d.objs → de ≠ 0)
    (n : Nat) (hn : FromRoot d n) :
    ∃ o, d.objAt n = some o ∧ ∀ r ∈ refs d o, r.key ≠ "OutlineParent" → r.ok d := by
  have b := reachable_base h
  have objs_of : ∀ {n : Nat} {o : Obj}, d.objAt n = some o → n ≠ 0 ∧ d.objs[n - 1]? = some o := by
    intro n o ho
    unfold Doc.objAt at ho
    split at ho
    · simp at ho
    · next h0 => exact ⟨h0, ho⟩
  -- the target of any reachable number exists, and an image among them is registered
  have key : ∀ n, FromRoot d n → ∃ o, d.objAt n = some o ∧ (o.kind = .imageXObject → ∃ id, (id, n - 1) ∈ d.imgs) := by
    intro n hn
    induction hn with
    | root =>
      obtain ⟨o, h1, h2⟩ := ok_of_ident (k := "") (i := 0) b.b0 rfl
      exact ⟨o, h1, fun hk => by rw [h2] at hk; simp [Obj.kind] at hk⟩
    | step hf ho hr ih =>
      next n o r =>
      obtain ⟨o', h1, h2⟩ := ih
      rw [ho] at h1
      cases h1
      obtain ⟨h0, hi⟩ := objs_of ho
      obtain ⟨k1, k2, k3⟩ := refs_ok h hmask hanchor hout hi h2 r hr
      by_cases hk : r.key = "OutlineParent"
      · rw [k2 hk]
        obtain ⟨o, h1, h2⟩ := ok_of_ident (k := "") (i := 1) b.b1 rfl
        exact ⟨o, h1, fun hk => by rw [h2] at hk; simp [Obj.kind] at hk⟩
      · obtain ⟨o2, e1, e2⟩ := k1 hk
        exact ⟨o2, e1, fun hk => k3 (by rw [← e2]; exact hk)⟩
  obtain ⟨o, h1, h2⟩ := key n hn
  refine ⟨o, h1, fun r hr hk => ?_⟩
  obtain ⟨h0, hi⟩ := objs_of h1
  exact (refs_ok h hmask hanchor hout hi h2 r hr).1 hk

/-- The hypotheses of `no_dangling` hold of the demo document, and it has references of every kind. -/
example : (demo.objs.all (fun o => match o with
      | .image _ m _ _ => !(m.isMask && m.indexed)
      | .outline _ de _ _ _ => de != 0
      | _ => true)) = true ∧ (demo.anchors.all (fun x => x.2.1.isSome)) = true ∧
      (demo.objs.flatMap (refs demo)).length = 38 := by
  decide +kernel

/-- **C04** A palette image drawn through a mask first: the written colour space refers to object 1, the catalog. -/
theorem indexed_mask_fails : ∃ (d : Doc) (n : Nat) (o : Obj) (r : Ref), Reachable d ∧ FromRoot d n ∧
    d.objAt n = some o ∧ r ∈ refs d o ∧ r.want = .palette ∧ r.num = 1 := by
  let h : List Op := [.addPage, .imageOpt 1 ⟨6, some (false, false)⟩ none (some (⟨5, some (false, true)⟩, none)), .compile]
  have h1 : FromRoot (exec (start false) h) 4 :=
    .step (.step (.step .root (o := .catalog none) (by decide +kernel) (r := ⟨"Pages", 2, .pageTree⟩) (by decide +kernel))
      (o := .pages [5] 1) (by decide +kernel) (r := ⟨"Kids", 5, .page⟩) (by decide +kernel))
      (o := .page [7] [] 4) (by decide +kernel) (r := ⟨"Resources", 4, .resources⟩) (by decide +kernel)
  have h2 : FromRoot (exec (start false) h) 6 :=
    .step h1 (o := .procset [] [] [5, 10] [9]) (by decide +kernel) (r := ⟨"XObject", 6, .imageXObject⟩) (by decide +kernel)
  exact ⟨_, 6, .image 5 ⟨true, false, true, false⟩ none none, ⟨"ColorSpace", 1, .palette⟩, ⟨false, h, rfl⟩, h2,
    by decide +kernel, by decide +kernel, rfl, rfl⟩

/-- **C04** An anchor set before the first page makes a link destination `0 0 R`. -/
theorem early_anchor_fails : ∃ (d : Doc) (n : Nat) (o : Obj) (r : Ref), Reachable d ∧ FromRoot d n ∧
    d.objAt n = some o ∧ r ∈ refs d o ∧ r.num = 0 ∧ d.objAt r.num = none := by
  let h : List Op := [.setAnchor 1 0, .addPage, .internalLink 1, .compile]
  have h2 : FromRoot (exec (start false) h) 6 :=
    .step (.step (.step .root (o := .catalog none) (by decide +kernel) (r := ⟨"Pages", 2, .pageTree⟩) (by decide +kernel))
      (o := .pages [5] 1) (by decide +kernel) (r := ⟨"Kids", 5, .page⟩) (by decide +kernel))
      (o := .page [] [6] 4) (by decide +kernel) (r := ⟨"Annots", 6, .annotation⟩) (by decide +kernel)
  exact ⟨_, 6, .annot (some 1), ⟨"Dest", 0, .page⟩, ⟨false, h, rfl⟩, h2, by decide +kernel, by decide +kernel, rfl,
    by decide +kernel⟩

/-- **C04** A bookmark added before the first page has the destination `0 0 R`. -/
theorem early_outline_fails : ∃ (d : Doc) (n : Nat) (o : Obj) (r : Ref), Reachable d ∧ FromRoot d n ∧
    d.objAt n = some o ∧ r ∈ refs d o ∧ r.num = 0 ∧ d.objAt r.num = none := by
  let h : List Op := [.addOutline 1, .addPage, .compile]
  have h2 : FromRoot (exec (start false) h) 5 :=
    .step (.step .root (o := .catalog (some 3)) (by decide +kernel) (r := ⟨"Outlines", 3, .outlineRoot⟩) (by decide +kernel))
      (o := .outlines (some 5) (some 5) 1) (by decide +kernel) (r := ⟨"First", 5, .outlineItem⟩) (by decide +kernel)
  exact ⟨_, 5, .outline 1 0 2 none none, ⟨"Dest", 0, .page⟩, ⟨false, h, rfl⟩, h2, by decide +kernel, by decide +kernel, rfl,
    by decide +kernel⟩

private theorem denotes_of {names : List (Nat × Nat)} {n m : Nat} (hn : (names.map (·.1)).Nodup) (hm : (n, m) ∈ names) :
    Denotes names n m := by
  unfold Denotes
  induction names with
  | nil => simp at hm
  | cons p l ih =>
    simp only [List.map_cons, List.nodup_cons] at hn
    rcases List.mem_cons.1 hm with h | h
    · subst h
      have : l.filter (fun p => p.1 = n) = [] := by
        rw [List.filter_eq_nil_iff]
        intro q hq
        simp
        intro e
        exact hn.1 (List.mem_map.2 ⟨q, hq, e⟩)
      simp [this]
    · have hne : p.1 ≠ n := by
        intro e
        exact hn.1 (e ▸ List.mem_map.2 ⟨(n, m), h, rfl⟩)
      simp [hne, ih hn.2 h]

private theorem nodup_succ {l : List Nat} (h : l.Nodup) : (l.map (· + 1)).Nodup := by
  rw [List.nodup_iff_pairwise_ne] at h ⊢
  exact List.Pairwise.map _ (fun a b hab => by simpa using hab) h

theorem nodup_imgs {d : Doc} (h : Reachable d) : d.relXobjs.Nodup := by
  rw [(reachable_res h).xobjs]
  have b := reachable_base h
  have hk := (reachable_res h).imgKeys
  have : ∀ x ∈ d.imgs, ∀ y ∈ d.imgs, x.2 = y.2 → x.1 = y.1 := by
    intro x hx y hy e
    obtain ⟨m, h1⟩ := b.imgs x.1 x.2 hx
    obtain ⟨m', h2⟩ := b.imgs y.1 y.2 hy
    rw [e, h2] at h1
    simp at h1
    exact h1.1.symm
  revert hk this
  generalize d.imgs = l
  intro hk hinj
  induction l with
  | nil => simp
  | cons x l ih =>
    simp only [List.map_cons, List.nodup_cons] at hk ⊢
    refine ⟨?_, ih hk.2 (fun a ha c hc => hinj a (List.mem_cons_of_mem _ ha) c (List.mem_cons_of_mem _ hc))⟩
    intro hm
    obtain ⟨y, hy, e⟩ := List.mem_map.1 hm
    have := hinj y (List.mem_cons_of_mem _ hy) x (by simp) e
    exact hk.1 (List.mem_map.2 ⟨y, hy, this⟩)

theorem nodup_gss {d : Doc} (h : Reachable d) : d.relGSs.Nodup := by
  rw [(reachable_res h).gs]
  have b := reachable_base h
  have hk := (reachable_res h).gsKeys
  have : ∀ x ∈ d.gss, ∀ y ∈ d.gss, x.2 = y.2 → x.1 = y.1 := by
    intro x hx y hy e
    have h1 := b.gss x.1 x.2 hx
    have h2 := b.gss y.1 y.2 hy
    rw [e, h2] at h1
    simp at h1
    exact h1.symm
  revert hk this
  generalize d.gss = l
  intro hk hinj
  induction l with
  | nil => simp
  | cons x l ih =>
    simp only [List.map_cons, List.nodup_cons] at hk ⊢
    refine ⟨?_, ih hk.2 (fun a ha c hc => hinj a (List.mem_cons_of_mem _ ha) c (List.mem_cons_of_mem _ hc))⟩
    intro hm
    obtain ⟨y, hy, e⟩ := List.mem_map.1 hm
    have := hinj y (List.mem_cons_of_mem _ hy) x (by simp) e
    exact hk.1 (List.mem_map.2 ⟨y, hy, this⟩)

private theorem fst_self (l : List Nat) : (l.map (fun i => (i + 1, i + 1))).map (·.1) = l.map (· + 1) := by simp

/-- **C04/C36** Every image, graphics state and colour space named by any content stream (or mask group) has exactly one
definition in the resource dictionary shared by all pages, and it denotes an object of that kind. -/
theorem resource_names_denote (d : Doc) (h : Reachable d) (n : Nat) (o : Obj) (ho : d.objAt n = some o)
    (e : Entry) (he : ∃ es, (o = .content es ∨ o = .group es) ∧ e ∈ es) :
    (∀ k, e.xobj = some k → ∃ m, Denotes d.xobjNames k m ∧ (d.objAt m).map Obj.kind = some .imageXObject) ∧
    (∀ k ∈ e.gs, ∃ m, Denotes d.gsNames k m ∧ (d.objAt m).map Obj.kind = some .graphicsState) ∧
    (∀ k, e.cs = some k → ∃ m, Denotes d.csNames k m ∧ (d.objAt m).map Obj.kind = some .colorSpace) := by
  have hres := reachable_res h
  have b := reachable_base h
  have hent : e ∈ o.entries := by
    rcases he with ⟨es, rfl | rfl, hm⟩
    · exact hm
    · exact hm
  have hidx : ∃ i : Nat, d.objs[i]? = some o := by
    unfold Doc.objAt at ho
    split at ho
    · simp at ho
    · exact ⟨_, ho⟩
  obtain ⟨i, hi⟩ := hidx
  have hnm := (reachable_names h).named i o hi e hent
  have kindAt : ∀ (j : Nat) (q : Obj), d.idents[j]? = some q → (d.objAt (j + 1)).map Obj.kind = some q.kind := by
    intro j q hq
    obtain ⟨x, h1, h2⟩ := ok_of_ident (k := "") (w := q.kind) hq rfl
    simp only [] at h1
    rw [h1]; simp [h2]
  refine ⟨?_, ?_, ?_⟩
  · intro k hk
    obtain ⟨j, h1, rfl⟩ := hnm.xobj k hk
    refine ⟨j + 1, denotes_of ?_ (List.mem_map.2 ⟨j, h1, rfl⟩), ?_⟩
    · rw [Doc.xobjNames, fst_self]; exact nodup_succ (nodup_imgs h)
    · rw [hres.xobjs] at h1
      obtain ⟨p, hp, rfl⟩ := List.mem_map.1 h1
      obtain ⟨m, hm⟩ := b.imgs p.1 p.2 hp
      exact kindAt _ _ hm
  · intro k hk
    obtain ⟨j, h1, rfl⟩ := hnm.gs k hk
    refine ⟨j + 1, denotes_of ?_ (List.mem_map.2 ⟨j, h1, rfl⟩), ?_⟩
    · rw [Doc.gsNames, fst_self]; exact nodup_succ (nodup_gss h)
    · rw [hres.gs] at h1
      obtain ⟨p, hp, rfl⟩ := List.mem_map.1 h1
      exact kindAt _ _ (b.gss p.1 p.2 hp)
  · intro k hk
    obtain ⟨r, h1, rfl⟩ := hnm.cs k hk
    refine ⟨r.index + 1, denotes_of ?_ (List.mem_map.2 ⟨r, h1, rfl⟩), kindAt _ _ (hres.csObj r h1)⟩
    have : d.csNames.map (·.1) = (d.relCSs.map (·.count)).map (· + 1) := by simp [Doc.csNames]
    rw [this, hres.csCount]
    exact nodup_succ List.nodup_range

/-- **C04** Every page uses the one resource dictionary (object 4). -/
theorem page_resources (d : Doc) (h : Reachable d) (n : Nat) (cs ls : List Nat) (r : Nat)
    (ho : d.objAt n = some (.page cs ls r)) : r = 4 ∧ (d.objAt 4).map Obj.kind = some .resources := by
  have b := reachable_base h
  constructor
  · unfold Doc.objAt at ho
    split at ho
    · simp at ho
    · rcases reachable_obj h ho with ⟨_, e⟩ | ⟨_, e⟩ | ⟨_, e⟩ | ⟨_, e⟩ | ⟨_, e⟩
      · simp [Obj.kind] at e
      · simp [Obj.kind] at e
      · simp [Obj.kind] at e
      · simp [Obj.kind] at e
      · exact e
  · obtain ⟨x, h1, h2⟩ := ok_of_ident (k := "") (i := procIdx) b.b3 rfl
    have : d.objAt 4 = some x := h1
    rw [this]; exact congrArg some h2

example : (demo.objs.flatMap Obj.entries).map (fun e => (e.font, e.xobj, e.gs, e.cs)) ≠ [] ∧
    demo.xobjNames.length = 3 ∧ demo.gsNames.length = 3 ∧ demo.csNames.length = 1 := by decide +kernel

end Verif.Props
