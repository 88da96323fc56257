import Verif.Lemmas.Doc.Names
/- Only AddColorSpace adds colour spaces. -/
namespace Verif.Doc.Spaces

/-- Colour spaces with other names than those in `K`. -/
def Special (K : Nat → Prop) : Obj → Prop
  | .colorSpace n _ => ¬ K n
  | _ => False

/-- Every special object of `d'` is in `d` already. -/
def NF (M : Nat → Prop) (d d' : Doc) : Prop := ∀ o ∈ d'.idents, Special M o → o ∈ d.idents

variable {M : Nat → Prop}

theorem NF.refl (d : Doc) : NF M d d := fun _ h _ => h
theorem NF.trans {a b c : Doc} (h : NF M a b) (h' : NF M b c) : NF M a c := fun o ho hk => h o (h' o ho hk) hk
theorem NF.of_eq {d d' : Doc} (h : d'.idents = d.idents) : NF M d d' := fun o ho _ => h ▸ ho
theorem NF.of_append {d d' : Doc} {l : List Obj} (h : d'.idents = d.idents ++ l) (hl : ∀ o ∈ l, ¬ Special M o := by simp [Special]) :
    NF M d d' := fun o ho hk => by
  rw [h, List.mem_append] at ho
  rcases ho with ho | ho
  · exact ho
  · exact absurd hk (hl o ho)
theorem NF.add (d : Doc) (o : Obj) (h : ¬ Special M o.ident := by simp [Special, Obj.ident]) : NF M d (d.add o) :=
  NF.of_append (idents_add d o) (by simpa using h)
theorem NF.upd (d : Doc) (i : Nat) (f : Obj → Obj) (h : ∀ o, (f o).ident = o.ident) : NF M d (d.upd i f) := NF.of_eq (idents_upd d i f h)
theorem NF.getContent (d : Doc) : NF M d d.getContent.1 := NF.of_append (idents_getContent d) (by split <;> simp [Special])
theorem NF.append (d : Doc) (e : Entry) : NF M d (d.append e) := NF.of_append (idents_append d e) (by split <;> simp [Special])
theorem NF.appendPaged (d : Doc) (e : Entry) : NF M d (d.appendPaged e).1 := NF.of_append (appendPaged_idents d e) (by split <;> simp [Special])

theorem NF.extGState (d : Doc) (k : GKey) : NF M d (d.extGState k).1 := by
  unfold Doc.extGState
  cases assoc d.gss k with
  | some i => exact NF.refl d
  | none =>
    exact (NF.add d (.extGS k)).trans (NF.upd _ procIdx _ (Obj.ident_addGS _))

theorem NF.saveTransparency (d : Doc) (t : Tr) : NF M d (d.saveTransparency t).1 := by
  unfold Doc.saveTransparency
  split
  · exact NF.refl d
  · split
    · exact NF.refl d
    · exact NF.extGState d _

theorem NF.cachedTransparency (d : Doc) (t : Option Tr) : NF M d (d.cachedTransparency t).1 := by
  unfold Doc.cachedTransparency
  cases t with
  | none => exact NF.refl d
  | some t => exact NF.saveTransparency d t

theorem NF.cacheImage (d : Doc) (id i : Nat) : NF M d (d.cacheImage id i) :=
  NF.upd d procIdx (Obj.addXobj i) (Obj.ident_addXobj _)
theorem NF.addSMaskImage (d : Doc) (i : Nat) : NF M d (d.addSMaskImage i) :=
  (NF.add d _).trans (NF.upd _ _ _ (Obj.ident_setSMask _))
theorem NF.addPalette (d : Doc) (i : Nat) : NF M d (d.addPalette i) :=
  (NF.add d _).trans (NF.upd _ _ _ (Obj.ident_setRGB _))

theorem NF.register (d : Doc) (id i : Nat) (a x : Bool) : NF M d (d.register id i a x) := by
  unfold Doc.register
  simp only []
  refine (NF.cacheImage d id i).trans ?_
  split <;> split
  · exact (NF.addSMaskImage _ _).trans (NF.addPalette _ _)
  · exact NF.addPalette _ _
  · exact NF.addSMaskImage _ _
  · exact NF.refl _

theorem NF.imageByHolder (d : Doc) (tag : Nat) (img : Img) (gs : List Nat) (split : Bool) :
    NF M d (d.imageByHolder tag img gs split).1 := by
  unfold Doc.imageByHolder
  split
  · exact NF.appendPaged d _
  · split
    · exact NF.refl d
    · next hasAlpha indexed hp =>
      simp only []
      have h0 := NF.add (M := M) d (.image img.id ⟨false, hasAlpha, indexed, split⟩ none none)
      generalize hd1 : d.add (.image img.id ⟨false, hasAlpha, indexed, split⟩ none none) = d1 at h0
      have h1 := h0.trans (NF.appendPaged d1 { tag := tag, xobj := some (d.objs.length + 1), gs := gs })
      generalize hap : d1.appendPaged { tag := tag, xobj := some (d.objs.length + 1), gs := gs } = ap at h1
      obtain ⟨d2, o⟩ := ap
      cases o with
      | ok =>
        exact h1.trans (NF.register d2 img.id d.objs.length hasAlpha indexed)
      | err => exact h1
      | panic => exact h1

theorem NF.softMask (d : Doc) (g : Nat) : NF M d (d.softMask g).1 := by
  unfold Doc.softMask
  split
  · exact NF.refl d
  · exact NF.add d _

theorem NF.maskGroup {tag : Nat} (d : Doc) (x : Nat) (gs : List Nat) : NF M d (d.maskGroup tag x gs).1 := by
  unfold Doc.maskGroup
  simp only []
  exact (NF.add d _).trans ((NF.softMask _ _).trans (NF.extGState _ _))

theorem NF.maskHolder {tag : Nat} (d : Doc) (img : Img) (gs : List Nat) : NF M d (d.maskHolder tag img gs).1 := by
  unfold Doc.maskHolder
  split
  · split
    · exact NF.getContent d
    · exact (NF.getContent d).trans (NF.maskGroup _ _ _)
  · split
    · exact NF.refl d
    · next hp =>
      simp only []
      split
      · exact (NF.add d _).trans (NF.getContent _)
      · exact (((NF.add d _).trans (NF.getContent _)).trans (NF.cacheImage _ _ _)).trans (NF.maskGroup _ _ _)

theorem NF.imageWithOptions (d : Doc) (tag : Nat) (img : Img) (tr : Option Tr) (mask : Option (Img × Option Tr)) : NF M d (d.imageWithOptions tag img tr mask).1 := by
  unfold Doc.imageWithOptions
  simp only []
  refine (NF.cachedTransparency d tr).trans ?_
  split
  · exact NF.imageByHolder _ _ _ _ _
  · next m mtr =>
    refine (NF.cachedTransparency _ mtr).trans ?_
    have h := NF.maskHolder (tag := tag) (M := M) ((d.cachedTransparency tr).1.cachedTransparency mtr).1 m
      ((d.cachedTransparency tr).1.cachedTransparency mtr).2.toList
    revert h
    generalize Doc.maskHolder _ _ m _ = r
    obtain ⟨d', g, o⟩ := r
    intro h
    split
    · next heq => cases heq; exact h.trans (NF.imageByHolder _ _ _ _ _)
    · next _ heq => cases heq; exact h

theorem NF.addColorSpace (d : Doc) (n : Nat) (hn : M n) : NF M d (d.addColorSpace n).1 := by
  unfold Doc.addColorSpace
  simp only []
  split
  · exact NF.add d _ (by simp [Special, Obj.ident, hn])
  · exact (NF.add d (.colorSpace n d.csCount) (by simp [Special, Obj.ident, hn])).trans (NF.upd _ procIdx _ (Obj.ident_addCSRel _))

theorem NF.addLink (d : Doc) (a : Option Nat) : NF M d (d.addLink a).1 := by
  unfold Doc.addLink
  split
  · exact NF.refl d
  · exact (NF.add d _).trans (NF.upd _ _ _ (Obj.ident_addLinkId _))

theorem NF.addOutline (d : Doc) (t : Nat) : NF M d (d.addOutline t) := by
  unfold Doc.addOutline
  simp only []
  split
  · exact (NF.add d _).trans (NF.upd _ _ _ (Obj.ident_addOutlineId _))
  · exact ((NF.add d _).trans (NF.upd _ _ _ (Obj.ident_addOutlineId _))).trans (NF.upd _ _ _ (Obj.ident_setNext _))

theorem NF.setFont (d : Doc) (f s : Nat) : NF M d (d.setFont f s).1 := by
  unfold Doc.setFont; split <;> exact NF.refl d

theorem NF.setColorSpace (d : Doc) (t n : Nat) : NF M d (d.setColorSpace t n).1 := by
  unfold Doc.setColorSpace
  split
  · exact NF.append d _
  · exact NF.refl d

theorem NF.setPage (d : Doc) (k : Nat) : NF M d (d.setPage k).1 := by
  unfold Doc.setPage
  split <;> exact NF.refl d

theorem nf_step (d : Doc) (op : Op) (b : Base d)
    (hM : ∀ n, op = .addColorSpace n → M n) : NF M d (step d op).1 := by
  cases op with
  | addPage => exact NF.of_append (l := [.page [] [] (procIdx + 1)]) (by simp [step, Doc.addPage, Doc.idents, Doc.add, Obj.ident])
  | draw tag np => simp only [step]; split; exact NF.appendPaged d _; exact NF.append d _
  | drawTr tag tr => exact (NF.cachedTransparency d tr).trans (NF.appendPaged _ _)
  | text tag =>
    simp only [step]; split
    · exact NF.refl d
    · exact NF.appendPaged d _
  | cell tag tr =>
    simp only [step]
    refine (NF.cachedTransparency d tr).trans ?_
    split
    · exact NF.refl _
    · exact NF.appendPaged _ _
  | setTransparency t => exact NF.saveTransparency d t
  | clearTransparency => exact NF.refl d
  | addFont f s ok =>
    simp only [step]; split
    · obtain ⟨cnt, hid, -⟩ := addFont_cases d b f s
      exact NF.of_append hid
    · exact NF.refl d
  | setFont f s => exact NF.setFont d f s
  | image tag img => exact NF.imageByHolder d _ _ _ _
  | imageOpt tag img tr mask =>
    exact NF.imageWithOptions d _ _ _ _
  | addColorSpace n => exact NF.addColorSpace d n (hM n rfl)
  | setColorSpace tag n => exact NF.setColorSpace d tag n
  | externalLink => exact NF.addLink d _
  | internalLink a => exact NF.addLink d _
  | setAnchor n y => exact NF.refl d
  | addOutline t => exact NF.addOutline d t
  | importObjects n =>
    refine NF.of_append (l := (List.replicate n Obj.imported).map Obj.ident) (by simp [step, Doc.idents]) ?_
    intro o ho
    simp only [List.map_replicate] at ho
    rw [List.eq_of_mem_replicate ho]
    simp [Special, Obj.ident]
  | setPage k => exact NF.setPage d k
  | compile => exact NF.of_append (prepare_idents d) (by split <;> simp [Special])


end Verif.Doc.Spaces
