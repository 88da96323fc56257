import Verif.Model.Doc
namespace Verif.Doc

/-- What never changes about an object once added (lists and links that calls extend are blanked out). -/
def Obj.ident : Obj → Obj
  | .catalog _ => .catalog none
  | .pages _ _ => .pages [] 0
  | .outlines _ _ _ => .outlines none none 0
  | .procset _ _ _ _ => .procset [] [] [] []
  | .page _ _ r => .page [] [] r
  | .content _ => .content []
  | .image id m _ _ => .image id m none none
  | .outline t d p _ _ => .outline t d p none none
  | o => o

def Doc.idents (d : Doc) : List Obj := d.objs.map Obj.ident

theorem map_modify {β : Type} (g : Obj → β) (f : Obj → Obj) (h : ∀ o, g (f o) = g o) (l : List Obj) (i : Nat) :
    (l.modify i f).map g = l.map g := by
  apply List.ext_getElem?
  intro j
  rw [List.getElem?_map, List.getElem?_map, List.getElem?_modify]
  cases l[j]? with
  | none => simp
  | some o =>
    simp only [Option.map_some]
    split <;> simp [h]

theorem Obj.ident_addEntry (e : Entry) (o : Obj) : (o.addEntry e).ident = o.ident := by cases o <;> rfl
theorem Obj.ident_addFontRel (r : RelFont) (o : Obj) : (o.addFontRel r).ident = o.ident := by cases o <;> rfl
theorem Obj.ident_addCSRel (r : RelCS) (o : Obj) : (o.addCSRel r).ident = o.ident := by cases o <;> rfl
theorem Obj.ident_addXobj (i : Nat) (o : Obj) : (o.addXobj i).ident = o.ident := by cases o <;> rfl
theorem Obj.ident_addGS (i : Nat) (o : Obj) : (o.addGS i).ident = o.ident := by cases o <;> rfl

theorem Obj.ident_setSMask (n : Nat) (o : Obj) : (o.setSMask n).ident = o.ident := by cases o <;> rfl
theorem Obj.ident_setRGB (n : Nat) (o : Obj) : (o.setRGB n).ident = o.ident := by cases o <;> rfl
theorem Obj.ident_addLinkId (n : Nat) (o : Obj) : (o.addLinkId n).ident = o.ident := by cases o <;> rfl
theorem Obj.ident_addOutlineId (n : Nat) (o : Obj) : (o.addOutlineId n).ident = o.ident := by cases o <;> rfl
theorem Obj.ident_setNext (n : Nat) (o : Obj) : (o.setNext n).ident = o.ident := by cases o <;> rfl
theorem Obj.ident_addKid (n : Nat) (o : Obj) : (o.addKid n).ident = o.ident := by cases o <;> rfl
theorem Obj.ident_addContentId (n : Nat) (o : Obj) : (o.addContentId n).ident = o.ident := by cases o <;> rfl
theorem Obj.ident_useOutlines (o : Obj) : o.useOutlines.ident = o.ident := by cases o <;> rfl

@[simp] theorem idents_add (d : Doc) (o : Obj) : (d.add o).idents = d.idents ++ [o.ident] := by
  simp [Doc.idents, Doc.add]

theorem idents_upd (d : Doc) (i : Nat) (f : Obj → Obj) (h : ∀ o, (f o).ident = o.ident) :
    (d.upd i f).idents = d.idents := map_modify _ f h _ _

theorem idents_len (d : Doc) : d.idents.length = d.objs.length := by simp [Doc.idents]

@[simp] theorem idents_getContent (d : Doc) : d.getContent.1.idents =
    d.idents ++ (if d.content.isNone then [.content []] else []) := by
  unfold Doc.getContent
  cases d.content with
  | some i => simp
  | none => simp [Doc.idents, Doc.add, Obj.ident]

@[simp] theorem idents_append (d : Doc) (e : Entry) : (d.append e).idents =
    d.idents ++ (if d.content.isNone then [.content []] else []) := by
  unfold Doc.append
  simp only []
  rw [idents_upd _ _ _ (Obj.ident_addEntry e), idents_getContent]

theorem appendPaged_idents (d : Doc) (e : Entry) : (d.appendPaged e).1.idents =
    d.idents ++ (if d.content.isNone then [.content []] else []) := by
  unfold Doc.appendPaged
  split <;> simp

/-- The stability relation: `d'` extends `d` without changing the identity of any object. -/
def Ext (d d' : Doc) : Prop := d.idents <+: d'.idents

theorem Ext.refl (d : Doc) : Ext d d := List.prefix_refl _
theorem Ext.trans {a b c : Doc} (h : Ext a b) (h' : Ext b c) : Ext a c := List.IsPrefix.trans h h'
theorem Ext.of_append {d d' : Doc} {l : List Obj} (h : d'.idents = d.idents ++ l) : Ext d d' := ⟨l, h.symm⟩
theorem Ext.of_eq {d d' : Doc} (h : d'.idents = d.idents) : Ext d d' := by unfold Ext; rw [h]; exact List.prefix_refl _
theorem Ext.add (d : Doc) (o : Obj) : Ext d (d.add o) := Ext.of_append (idents_add d o)
theorem Ext.upd (d : Doc) (i : Nat) (f : Obj → Obj) (h : ∀ o, (f o).ident = o.ident) : Ext d (d.upd i f) :=
  Ext.of_eq (idents_upd d i f h)
theorem Ext.getContent (d : Doc) : Ext d d.getContent.1 := Ext.of_append (idents_getContent d)
theorem Ext.append (d : Doc) (e : Entry) : Ext d (d.append e) := Ext.of_append (idents_append d e)
theorem Ext.appendPaged (d : Doc) (e : Entry) : Ext d (d.appendPaged e).1 := Ext.of_append (appendPaged_idents d e)

theorem Ext.extGState (d : Doc) (k : GKey) : Ext d (d.extGState k).1 := by
  unfold Doc.extGState
  cases assoc d.gss k with
  | some i => exact Ext.refl d
  | none =>
    exact (Ext.add d (.extGS k)).trans (Ext.upd _ procIdx _ (Obj.ident_addGS _))

theorem Ext.saveTransparency (d : Doc) (t : Tr) : Ext d (d.saveTransparency t).1 := by
  unfold Doc.saveTransparency
  split
  · exact Ext.refl d
  · split
    · exact Ext.refl d
    · exact Ext.extGState d _

theorem Ext.cachedTransparency (d : Doc) (t : Option Tr) : Ext d (d.cachedTransparency t).1 := by
  unfold Doc.cachedTransparency
  cases t with
  | none => exact Ext.refl d
  | some t => exact Ext.saveTransparency d t

theorem Ext.cacheImage (d : Doc) (id i : Nat) : Ext d (d.cacheImage id i) :=
  Ext.upd d procIdx (Obj.addXobj i) (Obj.ident_addXobj _)
theorem Ext.addSMaskImage (d : Doc) (i : Nat) : Ext d (d.addSMaskImage i) :=
  (Ext.add d _).trans (Ext.upd _ _ _ (Obj.ident_setSMask _))
theorem Ext.addPalette (d : Doc) (i : Nat) : Ext d (d.addPalette i) :=
  (Ext.add d _).trans (Ext.upd _ _ _ (Obj.ident_setRGB _))

theorem Ext.register (d : Doc) (id i : Nat) (a x : Bool) : Ext d (d.register id i a x) := by
  unfold Doc.register
  simp only []
  refine (Ext.cacheImage d id i).trans ?_
  split <;> split
  · exact (Ext.addSMaskImage _ _).trans (Ext.addPalette _ _)
  · exact Ext.addPalette _ _
  · exact Ext.addSMaskImage _ _
  · exact Ext.refl _

theorem Ext.imageByHolder (d : Doc) (tag : Nat) (img : Img) (gs : List Nat) (split : Bool) : Ext d (d.imageByHolder tag img gs split).1 := by
  unfold Doc.imageByHolder
  split
  · exact Ext.appendPaged d _
  · split
    · exact Ext.refl d
    · next hasAlpha indexed _ =>
      simp only []
      have h0 := Ext.add d (.image img.id ⟨false, hasAlpha, indexed, split⟩ none none)
      generalize hd1 : d.add (.image img.id ⟨false, hasAlpha, indexed, split⟩ none none) = d1 at h0
      have h1 := h0.trans (Ext.appendPaged d1 { tag := tag, xobj := some (d.objs.length + 1), gs := gs })
      generalize hap : d1.appendPaged { tag := tag, xobj := some (d.objs.length + 1), gs := gs } = ap at h1
      obtain ⟨d2, o⟩ := ap
      cases o with
      | ok =>
        exact h1.trans (Ext.register d2 img.id d.objs.length hasAlpha indexed)
      | err => exact h1
      | panic => exact h1

theorem Ext.softMask (d : Doc) (g : Nat) : Ext d (d.softMask g).1 := by
  unfold Doc.softMask
  split
  · exact Ext.refl d
  · exact Ext.add d _

theorem Ext.maskGroup {tag : Nat} (d : Doc) (x : Nat) (gs : List Nat) : Ext d (d.maskGroup tag x gs).1 := by
  unfold Doc.maskGroup
  simp only []
  exact (Ext.add d _).trans ((Ext.softMask _ _).trans (Ext.extGState _ _))

theorem Ext.maskHolder {tag : Nat} (d : Doc) (img : Img) (gs : List Nat) : Ext d (d.maskHolder tag img gs).1 := by
  unfold Doc.maskHolder
  split
  · split
    · exact Ext.getContent d
    · exact (Ext.getContent d).trans (Ext.maskGroup _ _ _)
  · split
    · exact Ext.refl d
    · simp only []
      split
      · exact (Ext.add d _).trans (Ext.getContent _)
      · exact (((Ext.add d _).trans (Ext.getContent _)).trans (Ext.cacheImage _ _ _)).trans (Ext.maskGroup _ _ _)

theorem Ext.imageWithOptions (d : Doc) (tag : Nat) (img : Img) (tr : Option Tr) (mask : Option (Img × Option Tr)) :
    Ext d (d.imageWithOptions tag img tr mask).1 := by
  unfold Doc.imageWithOptions
  simp only []
  refine (Ext.cachedTransparency d tr).trans ?_
  split
  · exact Ext.imageByHolder _ _ _ _ _
  · next m mtr =>
    refine (Ext.cachedTransparency _ mtr).trans ?_
    have h := Ext.maskHolder (tag := tag) ((d.cachedTransparency tr).1.cachedTransparency mtr).1 m
      ((d.cachedTransparency tr).1.cachedTransparency mtr).2.toList
    revert h
    generalize Doc.maskHolder _ _ m _ = r
    obtain ⟨d', g, o⟩ := r
    intro h
    split
    · next heq => cases heq; exact h.trans (Ext.imageByHolder _ _ _ _ _)
    · next _ heq => cases heq; exact h

theorem Ext.addFont (d : Doc) (f s : Nat) : Ext d (d.addFont f s) := by
  unfold Doc.addFont
  simp only []
  have h : ∀ a b c e g, Ext d (((((d.add a).add b).add c).add e).add g) := fun a b c e g =>
    ((((Ext.add d a).trans (Ext.add _ b)).trans (Ext.add _ c)).trans (Ext.add _ e)).trans (Ext.add _ g)
  split
  · exact (h _ _ _ _ _).trans (Ext.upd _ procIdx _ (Obj.ident_addFontRel _))
  · exact h _ _ _ _ _

theorem Ext.addColorSpace (d : Doc) (n : Nat) : Ext d (d.addColorSpace n).1 := by
  unfold Doc.addColorSpace
  simp only []
  split
  · exact Ext.add d _
  · exact (Ext.add d _).trans (Ext.upd _ procIdx _ (Obj.ident_addCSRel _))

theorem Ext.addLink (d : Doc) (a : Option Nat) : Ext d (d.addLink a).1 := by
  unfold Doc.addLink
  split
  · exact Ext.refl d
  · exact (Ext.add d _).trans (Ext.upd _ _ _ (Obj.ident_addLinkId _))

theorem Ext.addOutline (d : Doc) (t : Nat) : Ext d (d.addOutline t) := by
  unfold Doc.addOutline
  simp only []
  split
  · exact (Ext.add d _).trans (Ext.upd _ _ _ (Obj.ident_addOutlineId _))
  · exact ((Ext.add d _).trans (Ext.upd _ _ _ (Obj.ident_addOutlineId _))).trans (Ext.upd _ _ _ (Obj.ident_setNext _))

theorem Ext.setFont (d : Doc) (f s : Nat) : Ext d (d.setFont f s).1 := by
  unfold Doc.setFont; split <;> exact Ext.refl d

theorem Ext.setColorSpace (d : Doc) (t n : Nat) : Ext d (d.setColorSpace t n).1 := by
  unfold Doc.setColorSpace
  split
  · exact Ext.append d _
  · exact Ext.refl d

theorem Ext.setPage (d : Doc) (k : Nat) : Ext d (d.setPage k).1 := by
  unfold Doc.setPage
  split <;> exact Ext.refl d

theorem prepStep_ident (st : List Obj × Option Nat × Nat) (i : Nat) :
    (prepStep st i).1.map Obj.ident = st.1.map Obj.ident := by
  unfold prepStep
  split
  · exact map_modify _ _ (Obj.ident_addKid _) _ _
  · split
    · exact map_modify _ _ (Obj.ident_addContentId _) _ _
    · rfl
  · rfl
  · rfl

theorem prep_ident (l : List Nat) (st : List Obj × Option Nat × Nat) :
    (l.foldl prepStep st).1.map Obj.ident = st.1.map Obj.ident := by
  induction l generalizing st with
  | nil => rfl
  | cons i l ih => rw [List.foldl_cons, ih, prepStep_ident]

theorem prepare_eq (d : Doc) : d.prepare =
    { d.prep0 with
      objs := ((List.range d.prep0.objs.length).foldl prepStep (d.prep0.objs, none, d.prep0.encId)).1
      encId := ((List.range d.prep0.objs.length).foldl prepStep (d.prep0.objs, none, d.prep0.encId)).2.2 } := rfl

theorem markOutlines_idents (d : Doc) : d.markOutlines.idents = d.idents := by
  unfold Doc.markOutlines
  split
  · split
    · exact idents_upd _ _ _ Obj.ident_useOutlines
    · rfl
  · rfl

theorem prep0_idents (d : Doc) : d.prep0.idents = d.idents ++ (if d.prot then [.encryption] else []) := by
  unfold Doc.prep0
  rw [markOutlines_idents]
  split <;> simp [Obj.ident]

theorem prepare_idents (d : Doc) : d.prepare.idents = d.idents ++ (if d.prot then [.encryption] else []) := by
  rw [prepare_eq, ← prep0_idents]
  exact prep_ident _ _

theorem step_ext (d : Doc) (op : Op) : Ext d (step d op).1 := by
  cases op with
  | addPage => exact Ext.of_append (l := [.page [] [] (procIdx + 1)]) (by simp [step, Doc.addPage, Doc.idents, Doc.add, Obj.ident])
  | draw tag np => simp only [step]; split; exact Ext.appendPaged d _; exact Ext.append d _
  | drawTr tag tr => exact (Ext.cachedTransparency d tr).trans (Ext.appendPaged _ _)
  | text tag =>
    simp only [step]; split
    · exact Ext.refl d
    · exact Ext.appendPaged d _
  | cell tag tr =>
    simp only [step]
    refine (Ext.cachedTransparency d tr).trans ?_
    split
    · exact Ext.refl _
    · exact Ext.appendPaged _ _
  | setTransparency t => exact Ext.saveTransparency d t
  | clearTransparency => exact Ext.refl d
  | addFont f s ok =>
    simp only [step]; split
    · exact Ext.addFont d f s
    · exact Ext.refl d
  | setFont f s => exact Ext.setFont d f s
  | image tag img => exact Ext.imageByHolder d _ _ _ _
  | imageOpt tag img tr mask => exact Ext.imageWithOptions d _ _ _ _
  | addColorSpace n => exact Ext.addColorSpace d n
  | setColorSpace tag n => exact Ext.setColorSpace d tag n
  | externalLink => exact Ext.addLink d _
  | internalLink a => exact Ext.addLink d _
  | setAnchor n y => exact Ext.refl d
  | addOutline t => exact Ext.addOutline d t
  | importObjects n => exact Ext.of_append (l := (List.replicate n Obj.imported).map Obj.ident) (by simp [step, Doc.idents])
  | setPage k => exact Ext.setPage d k
  | compile => exact Ext.of_append (prepare_idents d)

theorem exec_ext (d : Doc) (h : List Op) : Ext d (exec d h) := by
  induction h generalizing d with
  | nil => exact Ext.refl d
  | cons op h ih => exact (step_ext d op).trans (ih _)

theorem exec_append (d : Doc) (h₁ h₂ : List Op) : exec d (h₁ ++ h₂) = exec (exec d h₁) h₂ := by
  induction h₁ generalizing d with
  | nil => rfl
  | cons op h ih => exact ih _

end Verif.Doc
