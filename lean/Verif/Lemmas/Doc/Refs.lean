import Verif.Lemmas.Doc.Induct
import Verif.Spec.DocRefs
/- Every reference that was set resolves to an object of the required kind. -/
namespace Verif.Doc

theorem kind_ident (o : Obj) : o.ident.kind = o.kind := by cases o <;> rfl

theorem ok_of_ident {d : Doc} {k : String} {i : Nat} {w : Kind} {o : Obj} (h : d.idents[i]? = some o) (hk : o.kind = w) :
    Ref.ok d ⟨k, i + 1, w⟩ := by
  unfold Doc.idents at h
  rw [List.getElem?_map] at h
  cases ho : d.objs[i]? with
  | none => rw [ho] at h; simp at h
  | some x =>
    rw [ho] at h; simp at h
    refine ⟨x, ?_, ?_⟩
    · simp [Doc.objAt, ho]
    · rw [← kind_ident, h]; exact hk

theorem ok_iff {d : Doc} {r : Ref} : r.ok d ↔ r.num ≠ 0 ∧ ∃ o, d.idents[r.num - 1]? = some o ∧ o.kind = r.want := by
  constructor
  · rintro ⟨o, h, hk⟩
    unfold Doc.objAt at h
    split at h
    · simp at h
    · next hn =>
      exact ⟨hn, o.ident, ident_at h, by rw [kind_ident]; exact hk⟩
  · rintro ⟨hn, o, h, hk⟩
    have := ok_of_ident (k := r.key) h hk
    have e : r.num - 1 + 1 = r.num := by omega
    rw [e] at this
    exact this

theorem ok_ext {d d' : Doc} (h : Ext d d') {r : Ref} (hr : r.ok d) : r.ok d' := by
  obtain ⟨hn, o, h1, h2⟩ := ok_iff.1 hr
  exact ok_iff.2 ⟨hn, o, prefix_get h h1, h2⟩

/-- The references that do not depend on the order of calls. -/
def core : Obj → List Ref
  | .image _ _ s r => s.toList.map (fun i => ⟨"SMask", i + 1, .imageSMask⟩) ++ r.toList.map (fun i => ⟨"ColorSpace", i + 1, .palette⟩)
  | .annot _ => []
  | .outline _ de _ pr ne => (if de = 0 then [] else [⟨"Dest", de, .page⟩]) ++
    (pr.toList.map (⟨"Prev", ·, .outlineItem⟩) ++ ne.toList.map (⟨"Next", ·, .outlineItem⟩))
  | o => refs (start false) o

def WF (d : Doc) : Prop := ∀ (i : Nat) (o : Obj), d.objs[i]? = some o → ∀ r ∈ core o, r.ok d

theorem WF.objs {d d' : Doc} (h : WF d) (e : d'.objs = d.objs) : WF d' := by
  have hx : Ext d d' := Ext.of_eq (by unfold Doc.idents; rw [e])
  intro i o ho r hr
  exact ok_ext hx (h i o (e ▸ ho) r hr)

theorem WF.add {d : Doc} (h : WF d) (o : Obj) (ho : ∀ r ∈ core o, r.ok (d.add o)) : WF (d.add o) := by
  intro i o' ho' r hr
  simp only [Doc.add] at ho'
  rcases Nat.lt_or_ge i d.objs.length with hi | hi
  · rw [List.getElem?_append_left hi] at ho'
    exact ok_ext (Ext.add d o) (h i o' ho' r hr)
  · rw [List.getElem?_append_right hi] at ho'
    have : i - d.objs.length = 0 := by
      rcases Nat.eq_zero_or_pos (i - d.objs.length) with h | h
      · exact h
      · rw [List.getElem?_eq_none (by simp; omega)] at ho'; simp at ho'
    rw [this] at ho'
    simp at ho'
    subst ho'
    exact ho r hr

theorem WF.upd {d : Doc} (h : WF d) (i : Nat) (f : Obj → Obj) (hf : ∀ o, (f o).ident = o.ident)
    (ho : ∀ o, d.objs[i]? = some o → ∀ r ∈ core (f o), r ∈ core o ∨ r.ok d) : WF (d.upd i f) := by
  have hx := Ext.upd d i f hf
  intro j o' ho' r hr
  simp only [Doc.upd, List.getElem?_modify] at ho'
  cases hj : d.objs[j]? with
  | none => rw [hj] at ho'; simp at ho'
  | some o =>
    rw [hj] at ho'
    simp at ho'
    split at ho'
    · next he =>
      subst he
      subst ho'
      rcases ho o hj r hr with h' | h'
      · exact ok_ext hx (h i o hj r h')
      · exact ok_ext hx h'
    · subst ho'
      exact ok_ext hx (h j o hj r hr)

theorem core_addEntry (e : Entry) (o : Obj) : core (o.addEntry e) = core o := by cases o <;> rfl
theorem core_useOutlines (o : Obj) : ∀ r ∈ core o.useOutlines, r ∈ core o ∨ r = ⟨"Outlines", 3, .outlineRoot⟩ := by
  intro r hr
  cases o <;> first | exact Or.inl hr | skip
  simp [Obj.useOutlines, core, refs] at hr
  rcases hr with h | h
  · left; simp [core, refs, h]
  · exact Or.inr h

theorem core_addKid (n : Nat) (o : Obj) : ∀ r ∈ core (o.addKid n), r ∈ core o ∨ r = ⟨"Kids", n, .page⟩ := by
  intro r hr
  cases o <;> first | exact Or.inl hr | skip
  simp only [Obj.addKid, core, refs, List.map_append, List.mem_append, List.map_cons, List.map_nil, List.mem_singleton] at hr ⊢
  exact hr

theorem core_addContentId (n : Nat) (o : Obj) :
    ∀ r ∈ core (o.addContentId n), r ∈ core o ∨ r = ⟨"Contents", n, .contentStream⟩ := by
  intro r hr
  cases o <;> first | exact Or.inl hr | skip
  simp only [Obj.addContentId, core, refs, List.map_append, List.mem_append, List.map_cons, List.map_nil, List.mem_cons] at hr ⊢
  grind

theorem core_addLinkId (n : Nat) (o : Obj) :
    ∀ r ∈ core (o.addLinkId n), r ∈ core o ∨ r = ⟨"Annots", n, .annotation⟩ := by
  intro r hr
  cases o <;> first | exact Or.inl hr | skip
  simp only [Obj.addLinkId, core, refs, List.map_append, List.mem_append, List.map_cons, List.map_nil, List.mem_cons] at hr ⊢
  grind

theorem core_addOutlineId (n : Nat) (o : Obj) :
    ∀ r ∈ core (o.addOutlineId n), r ∈ core o ∨ r = ⟨"First", n, .outlineItem⟩ ∨ r = ⟨"Last", n, .outlineItem⟩ := by
  intro r hr
  cases o <;> first | exact Or.inl hr | skip
  next f l c =>
  cases f <;> simp [Obj.addOutlineId, core, refs] at hr ⊢ <;> grind

theorem core_setNext (n : Nat) (o : Obj) :
    ∀ r ∈ core (o.setNext n), r ∈ core o ∨ r = ⟨"Next", n, .outlineItem⟩ := by
  intro r hr
  cases o <;> first | exact Or.inl hr | skip
  simp only [Obj.setNext, core, List.mem_append, Option.toList, List.map_cons, List.map_nil, List.mem_singleton] at hr ⊢
  grind

theorem core_setSMask (n : Nat) (o : Obj) :
    ∀ r ∈ core (o.setSMask n), r ∈ core o ∨ r = ⟨"SMask", n + 1, .imageSMask⟩ := by
  intro r hr
  cases o <;> first | exact Or.inl hr | skip
  simp [Obj.setSMask, core] at hr ⊢
  grind

theorem core_setRGB (n : Nat) (o : Obj) :
    ∀ r ∈ core (o.setRGB n), r ∈ core o ∨ r = ⟨"ColorSpace", n + 1, .palette⟩ := by
  intro r hr
  cases o <;> first | exact Or.inl hr | skip
  simp [Obj.setRGB, core] at hr ⊢
  grind

theorem core_addGS (n : Nat) (o : Obj) :
    ∀ r ∈ core (o.addGS n), r ∈ core o ∨ r = ⟨"ExtGState", n + 1, .graphicsState⟩ := by
  intro r hr
  cases o <;> first | exact Or.inl hr | skip
  simp only [Obj.addGS, core, refs, List.map_append, List.mem_append, List.map_cons, List.map_nil, List.mem_cons] at hr ⊢
  grind

theorem core_addXobj (n : Nat) (o : Obj) :
    ∀ r ∈ core (o.addXobj n), r ∈ core o ∨ r = ⟨"XObject", n + 1, .imageXObject⟩ := by
  intro r hr
  cases o <;> first | exact Or.inl hr | skip
  simp only [Obj.addXobj, core, refs, List.map_append, List.mem_append, List.map_cons, List.map_nil, List.mem_cons] at hr ⊢
  grind

theorem core_addFontRel (x : RelFont) (o : Obj) :
    ∀ r ∈ core (o.addFontRel x), r ∈ core o ∨ r = ⟨"Font", x.index + 1, .font⟩ := by
  intro r hr
  cases o <;> first | exact Or.inl hr | skip
  simp only [Obj.addFontRel, core, refs, List.map_append, List.mem_append, List.map_cons, List.map_nil, List.mem_cons] at hr ⊢
  grind

theorem core_addCSRel (x : RelCS) (o : Obj) :
    ∀ r ∈ core (o.addCSRel x), r ∈ core o ∨ r = ⟨"ColorSpace", x.index + 1, .colorSpace⟩ := by
  intro r hr
  cases o <;> first | exact Or.inl hr | skip
  simp only [Obj.addCSRel, core, refs, List.map_append, List.mem_append, List.map_cons, List.map_nil, List.mem_cons] at hr ⊢
  grind

/-- One-step update with a single new reference. -/
theorem WF.upd1 {d : Doc} (h : WF d) (i : Nat) (f : Obj → Obj) (hf : ∀ o, (f o).ident = o.ident) (x : Ref)
    (hc : ∀ o, ∀ r ∈ core (f o), r ∈ core o ∨ r = x) (hx : x.ok d) : WF (d.upd i f) :=
  h.upd i f hf (fun o _ r hr => by
    rcases hc o r hr with h | h
    · exact Or.inl h
    · rw [h]; exact Or.inr hx)

theorem ident_last (d : Doc) (o : Obj) : (d.add o).idents[d.objs.length]? = some o.ident := by
  rw [idents_add]; simp [← idents_len d]

/-- One step of the loop of `prepare`, as a change of the document. -/
theorem prepStep_wf {d : Doc} (b : Base d) (h : WF d) (c : Option Nat) (n i : Nat)
    (r : List Obj × Option Nat × Nat) (hr : prepStep (d.objs, c, n) i = r) :
    WF { d with objs := r.1, encId := r.2.2 } ∧ Base { d with objs := r.1, encId := r.2.2 } := by
  have plain : ∀ m, WF { d with encId := m } ∧ Base { d with encId := m } := fun m =>
    ⟨h.objs rfl, b.ext (Ext.refl d) rfl rfl rfl rfl rfl rfl rfl rfl rfl rfl⟩
  unfold prepStep at hr
  simp only [] at hr
  split at hr
  · next heq =>
    subst hr
    have hx := Ext.upd d 1 _ (Obj.ident_addKid (i + 1))
    refine ⟨(h.upd1 1 _ (Obj.ident_addKid (i + 1)) _ (core_addKid _) (ok_of_ident (ident_at heq) rfl)).objs rfl, ?_⟩
    exact b.ext hx rfl rfl rfl rfl rfl rfl rfl rfl rfl rfl
  · next heq =>
    split at hr
    · next _ _ p =>
      subst hr
      refine ⟨(h.upd1 p _ (Obj.ident_addContentId (i + 1)) _ (core_addContentId _)
        (ok_of_ident (ident_at heq) rfl)).objs rfl, ?_⟩
      exact b.ext (Ext.upd d p _ (Obj.ident_addContentId (i + 1))) rfl rfl rfl rfl rfl rfl rfl rfl rfl rfl
    · subst hr; exact plain _
  · subst hr; exact plain _
  · subst hr; exact plain _

theorem prepFold_wf (l : List Nat) {d : Doc} (b : Base d) (h : WF d) (c : Option Nat) (n : Nat)
    (r : List Obj × Option Nat × Nat) (hr : l.foldl prepStep (d.objs, c, n) = r) :
    WF { d with objs := r.1, encId := r.2.2 } := by
  induction l generalizing d c n with
  | nil => subst hr; exact h.objs rfl
  | cons i l ih =>
    simp only [List.foldl_cons] at hr
    obtain ⟨h1, b1⟩ := prepStep_wf b h c n i _ rfl
    generalize prepStep (d.objs, c, n) i = st at h1 b1 hr
    obtain ⟨o, c', n'⟩ := st
    exact ih (d := { d with objs := o, encId := n' }) b1 h1 c' n' hr

theorem WF.markOutlines {d : Doc} (b : Base d) (h : WF d) : WF d.markOutlines := by
  unfold Doc.markOutlines
  split
  · split
    · refine h.upd1 0 _ Obj.ident_useOutlines _ core_useOutlines ?_
      exact ok_of_ident (i := 2) b.b2 rfl
    · exact h
  · exact h

theorem Base.markOutlines {d : Doc} (b : Base d) : Base d.markOutlines := by
  have hm : d.markOutlines = { d with objs := d.markOutlines.objs } := by
    unfold Doc.markOutlines; split <;> (try split) <;> rfl
  have hx : Ext d d.markOutlines := Ext.of_eq (markOutlines_idents d)
  rw [hm] at hx ⊢
  exact b.ext hx rfl rfl rfl rfl rfl rfl rfl rfl rfl rfl

theorem WF.stable : Stable WF where
  addPage := fun d b h => by
    refine (h.add (.page [] [] (procIdx + 1)) ?_).objs rfl
    intro r hr
    simp [core, refs] at hr
    rcases hr with rfl | rfl
    · exact ok_ext (Ext.add d _) (ok_of_ident (i := 1) b.b1 rfl)
    · exact ok_ext (Ext.add d _) (ok_of_ident b.b3 rfl)
  mkContent := fun d _ h hc => by
    have e : d.getContent.1 = { d.add (.content []) with content := some d.objs.length } := by
      simp [Doc.getContent, hc]
    rw [e]
    exact (h.add (.content []) (by simp [core, refs])).objs rfl
  entry := fun d i e _ h _ _ => h.upd i _ (Obj.ident_addEntry e) (fun o _ r hr => by
    rw [core_addEntry] at hr; exact Or.inl hr)
  newGS := fun d k b h hn hm => by
    have e : (d.extGState k).1 = { (d.add (.extGS k)).upd procIdx (Obj.addGS d.objs.length) with
        gss := d.gss ++ [(k, d.objs.length)] } := by
      simp [Doc.extGState, hn, Doc.add, Doc.upd]
    rw [e]
    have h1 : WF (d.add (.extGS k)) := h.add _ (by
      intro r hr
      cases k with
      | alpha _ _ => simp [core, refs] at hr
      | smask m =>
        simp [core, refs] at hr
        subst hr
        obtain ⟨g, hg⟩ := hm m rfl
        exact ok_ext (Ext.add d _) (ok_of_ident (b.masks g m hg) rfl))
    refine WF.objs (d := (d.add (.extGS k)).upd procIdx (Obj.addGS d.objs.length)) ?_ rfl
    exact h1.upd1 procIdx _ (Obj.ident_addGS _) _ (core_addGS _) (ok_of_ident (ident_last d _) rfl)
  newTr := fun d _ _ _ _ h _ _ => h.objs rfl
  setTr := fun d _ _ h _ => h.objs rfl
  addImage := fun d _ _ _ h _ => h.add _ (by simp [core])
  register := fun d id m i b h _ hi => by
    have h1 : WF (d.cacheImage id i) := by
      refine WF.objs (d := d.upd procIdx (Obj.addXobj i)) ?_ rfl
      exact h.upd1 procIdx _ (Obj.ident_addXobj _) _ (core_addXobj _) (ok_of_ident (ident_at hi) rfl)
    have h2 : ∀ e : Doc, WF e → WF (e.addSMaskImage i) := fun e he =>
      (he.add .imageSMask (by simp [core, refs])).upd1 i _ (Obj.ident_setSMask _) _ (core_setSMask _)
        (ok_of_ident (ident_last e _) rfl)
    have h3 : ∀ e : Doc, WF e → WF (e.addPalette i) := fun e he =>
      (he.add .deviceRGB (by simp [core, refs])).upd1 i _ (Obj.ident_setRGB _) _ (core_setRGB _)
        (ok_of_ident (ident_last e _) rfl)
    unfold Doc.register
    simp only []
    split <;> split
    · exact h3 _ (h2 _ h1)
    · exact h3 _ h1
    · exact h2 _ h1
    · exact h1
  group := fun d _ _ h _ => h.add _ (by simp [core, refs])
  softMask := fun d g b h hn hg => by
    have e : (d.softMask g).1 = { d.add (.softMask g) with masks := d.masks ++ [(g, d.objs.length)] } := by
      simp [Doc.softMask, hn, Doc.add]
    rw [e]
    refine WF.objs (d := d.add (.softMask g)) (h.add _ ?_) rfl
    intro r hr
    simp [core, refs] at hr
    subst hr
    obtain ⟨es, hg⟩ := hg
    exact ok_ext (Ext.add d _) (ok_of_ident hg rfl)
  addFont := fun d f s b h => by
    have key : ∀ cnt, WF (((((d.add .unicodeMap).add .fontFile).add (.fontDesc (d.objs.length + 1))).add
        (.cidFont (d.objs.length + 2))).add (.font f s cnt (d.objs.length + 3) d.objs.length)) := by
      intro cnt
      have h1 := h.add .unicodeMap (by simp [core, refs])
      have i1 := ident_last d .unicodeMap
      have l1 : (d.add .unicodeMap).objs.length = d.objs.length + 1 := by simp [Doc.add]
      generalize d.add .unicodeMap = d1 at *
      have h2 := h1.add .fontFile (by simp [core, refs])
      have i2 := ident_last d1 .fontFile
      have j2 := prefix_get (Ext.add d1 .fontFile) i1
      have l2 : (d1.add .fontFile).objs.length = d.objs.length + 2 := by simp [Doc.add, l1]
      rw [l1] at i2
      generalize d1.add .fontFile = d2 at *
      have h3 := h2.add (.fontDesc (d.objs.length + 1)) (by
        intro r hr
        simp [core, refs] at hr; subst hr
        exact ok_ext (Ext.add d2 _) (ok_of_ident i2 rfl))
      have i3 := ident_last d2 (.fontDesc (d.objs.length + 1))
      have j3 := prefix_get (Ext.add d2 (.fontDesc (d.objs.length + 1))) j2
      have l3 : (d2.add (.fontDesc (d.objs.length + 1))).objs.length = d.objs.length + 3 := by simp [Doc.add, l2]
      rw [l2] at i3
      generalize d2.add (.fontDesc (d.objs.length + 1)) = d3 at *
      have h4 := h3.add (.cidFont (d.objs.length + 2)) (by
        intro r hr
        simp [core, refs] at hr; subst hr
        exact ok_ext (Ext.add d3 _) (ok_of_ident i3 rfl))
      have i4 := ident_last d3 (.cidFont (d.objs.length + 2))
      have j4 := prefix_get (Ext.add d3 (.cidFont (d.objs.length + 2))) j3
      rw [l3] at i4
      generalize d3.add (.cidFont (d.objs.length + 2)) = d4 at *
      refine h4.add _ ?_
      intro r hr
      simp [core, refs] at hr
      rcases hr with rfl | rfl
      · exact ok_ext (Ext.add d4 _) (ok_of_ident i4 rfl)
      · exact ok_ext (Ext.add d4 _) (ok_of_ident j4 rfl)
    have last : ∀ cnt, (((((d.add .unicodeMap).add .fontFile).add (.fontDesc (d.objs.length + 1))).add
        (.cidFont (d.objs.length + 2))).add (.font f s cnt (d.objs.length + 3) d.objs.length)).idents[d.objs.length + 4]? =
        some (.font f s cnt (d.objs.length + 3) d.objs.length) := by
      intro cnt
      have := ident_last ((((d.add .unicodeMap).add .fontFile).add (.fontDesc (d.objs.length + 1))).add
        (.cidFont (d.objs.length + 2))) (.font f s cnt (d.objs.length + 3) d.objs.length)
      simpa [Doc.add, Obj.ident] using this
    unfold Doc.addFont
    simp only []
    split
    · next hc =>
      refine WF.objs (d := Doc.upd _ procIdx (Obj.addFontRel _)) ?_ rfl
      exact (key _).upd1 procIdx _ (Obj.ident_addFontRel _) _ (core_addFontRel _) (ok_of_ident (last _) rfl)
    · exact key _
  setFont := fun d f s _ h => by
    unfold Doc.setFont
    split
    · exact h.objs rfl
    · exact h
  addColorSpace := fun d n _ h => by
    unfold Doc.addColorSpace
    simp only []
    split
    · exact h.add _ (by simp [core, refs])
    · refine WF.objs (d := Doc.upd _ procIdx (Obj.addCSRel _)) ?_ rfl
      exact (h.add (.colorSpace n d.csCount) (by simp [core, refs])).upd1 procIdx _ (Obj.ident_addCSRel _) _
        (core_addCSRel _) (ok_of_ident (ident_last d _) rfl)
  addLink := fun d a _ h => by
    unfold Doc.addLink
    split
    · exact h
    · exact (h.add (.annot a) (by simp [core])).upd1 _ _ (Obj.ident_addLinkId _) _ (core_addLinkId _)
        (ok_of_ident (ident_last d _) rfl)
  setAnchor := fun d _ _ _ h => h.objs rfl
  addOutline := fun d t b h => by
    unfold Doc.addOutline
    simp only []
    have h1 : WF (d.add (.outline t d.curPageId 2 (d.lastOutline.map (· + 1)) none)) := h.add _ (by
      intro r hr
      have hr : (d.curPageId ≠ 0 ∧ r = ⟨"Dest", d.curPageId, .page⟩) ∨
          ∃ i, d.lastOutline = some i ∧ r = ⟨"Prev", i + 1, .outlineItem⟩ := by
        cases hl : d.lastOutline <;> simp [core, hl] at hr <;> simp_all
      rcases hr with ⟨hne, rfl⟩ | ⟨i, hi, rfl⟩
      · unfold Doc.curPageId at hne ⊢
        cases hp : d.curPage with
        | none => simp [hp] at hne
        | some p => exact ok_ext (Ext.add d _) (ok_of_ident (b.curPage p hp) rfl)
      obtain ⟨t', de, p, hp⟩ := b.lastOutline i hi
      exact ok_ext (Ext.add d _) (ok_of_ident hp rfl))
    have i1 := ident_last d (.outline t d.curPageId 2 (d.lastOutline.map (· + 1)) none)
    generalize d.add (.outline t d.curPageId 2 (d.lastOutline.map (· + 1)) none) = d1 at *
    have h2 : WF (d1.upd outlinesIdx (Obj.addOutlineId (d.objs.length + 1))) :=
      h1.upd _ _ (Obj.ident_addOutlineId _) (fun o _ r hr => by
        rcases core_addOutlineId _ o r hr with h | h | h
        · exact Or.inl h
        · right; subst h; exact ok_of_ident i1 rfl
        · right; subst h; exact ok_of_ident i1 rfl)
    have i2 := prefix_get (Ext.upd d1 outlinesIdx _ (Obj.ident_addOutlineId (d.objs.length + 1))) i1
    generalize d1.upd outlinesIdx (Obj.addOutlineId (d.objs.length + 1)) = d2 at *
    split
    · exact h2.objs rfl
    · next j _ =>
      refine WF.objs (d := d2.upd j (Obj.setNext (d.objs.length + 1))) ?_ rfl
      exact h2.upd1 j _ (Obj.ident_setNext _) _ (core_setNext _) (ok_of_ident i2 rfl)
  imported := fun d _ h => h.add _ (by simp [core, refs])
  setPage := fun d k _ h => by
    unfold Doc.setPage
    split
    · exact h.objs rfl
    · exact h
  prepare := fun d b h => by
    rw [prepare_eq]
    have b0 : Base d.prep0 := by
      unfold Doc.prep0
      split
      · exact Base.markOutlines (b.ext (Ext.add d _) rfl rfl rfl rfl rfl rfl rfl rfl rfl rfl)
      · exact b.markOutlines
    have h0 : WF d.prep0 := by
      unfold Doc.prep0
      split
      · exact WF.markOutlines (b.ext (Ext.add d _) rfl rfl rfl rfl rfl rfl rfl rfl rfl rfl) (h.add _ (by simp [core, refs]))
      · exact WF.markOutlines b h
    exact prepFold_wf _ b0 h0 _ _ _ rfl

theorem WF.start (p : Bool) : WF (start p) := by
  intro i o ho r hr
  match i, ho with
  | 0, ho =>
    simp [Doc.start] at ho; subst ho; simp [core, refs] at hr; subst hr
    exact ok_of_ident (i := 1) (o := .pages [] 0) (by simp [Doc.start, Doc.idents, Obj.ident]) rfl
  | 1, ho => simp [Doc.start] at ho; subst ho; simp [core, refs] at hr
  | 2, ho => simp [Doc.start] at ho; subst ho; simp [core, refs] at hr
  | 3, ho => simp [Doc.start] at ho; subst ho; simp [core, refs] at hr
  | n + 4, ho => simp [Doc.start] at ho

theorem reachable_wf {d : Doc} (h : Reachable d) : WF d := (reachable_of_stable WF.stable WF.start h).2

end Verif.Doc
