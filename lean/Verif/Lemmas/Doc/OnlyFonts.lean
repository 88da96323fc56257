import Verif.Lemmas.Doc.Names
/- Only AddTTFFont adds fonts. -/
namespace Verif.Doc

/-- Fonts, and images outside `M`. -/
def Special (M : ImgInfo → Nat → Prop) : Obj → Prop
  | .font _ _ _ _ _ => True
  | .image id m _ _ => ¬ M m id
  | _ => False

/-- Every special object of `d'` is in `d` already. -/
def NF (M : ImgInfo → Nat → Prop) (d d' : Doc) : Prop := ∀ o ∈ d'.idents, Special M o → o ∈ d.idents

variable {M : ImgInfo → Nat → Prop}

/-- The images a call may add: from the picture as it is parsed, or from the mask. -/
def Makes : Op → ImgInfo → Nat → Prop
  | .image _ img, m, id => img.id = id ∧ ∃ a x, img.parsed = some (a, x) ∧ m = ⟨false, a, x, false⟩
  | .imageOpt _ img _ mask, m, id => (img.id = id ∧ ∃ a x, img.parsed = some (a, x) ∧ m = ⟨false, a, x, mask.isSome⟩) ∨
      ∃ mi t a x, mask = some (mi, t) ∧ mi.id = id ∧ mi.parsed = some (a, x) ∧ m = ⟨true, a, x, false⟩
  | _, _, _ => False

theorem NF.refl (d : Doc) : NF M d d := fun _ h _ => h
theorem NF.trans {a b c : Doc} (h : NF M a b) (h' : NF M b c) : NF M a c := fun o ho hk => h o (h' o ho hk) hk
theorem NF.of_eq {d d' : Doc} (h : d'.idents = d.idents) : NF M d d' := fun o ho _ => h ▸ ho
theorem NF.of_append {d d' : Doc} {l : List Obj} (h : d'.idents = d.idents ++ l) (hl : ∀ o ∈ l, ¬ Special M o := by simp [Special]) :
    NF M d d' := fun o ho hk => by
  rw [h, List.mem_append] at ho
  rcases ho with ho | ho
  · exact ho
  · exact absurd hk (hl o ho)
theorem NF.add (d : Doc) (o : Obj) (h : ¬ Special M o.ident := by simp [Special, Obj.ident]) : NF M d (d.add o) :=
  NF.of_append (idents_add d o) (by simpa using h)
theorem NF.upd (d : Doc) (i : Nat) (f : Obj → Obj) (h : ∀ o, (f o).ident = o.ident) : NF M d (d.upd i f) := NF.of_eq (idents_upd d i f h)
theorem NF.getContent (d : Doc) : NF M d d.getContent.1 := NF.of_append (idents_getContent d) (by split <;> simp [Special])
theorem NF.append (d : Doc) (e : Entry) : NF M d (d.append e) := NF.of_append (idents_append d e) (by split <;> simp [Special])
theorem NF.appendPaged (d : Doc) (e : Entry) : NF M d (d.appendPaged e).1 := NF.of_append (appendPaged_idents d e) (by split <;> simp [Special])

theorem NF.extGState (d : Doc) (k : GKey) : NF M d (d.extGState k).1 := by
  unfold Doc.extGState
  cases assoc d.gss k with
  | some i => exact NF.refl d
  | none =>
    exact (NF.add d (.extGS k)).trans (NF.upd _ procIdx _ (Obj.ident_addGS _))

theorem NF.saveTransparency (d : Doc) (t : Tr) : NF M d (d.saveTransparency t).1 := by
  unfold Doc.saveTransparency
  split
  · exact NF.refl d
  · split
    · exact NF.refl d
    · exact NF.extGState d _

theorem NF.cachedTransparency (d : Doc) (t : Option Tr) : NF M d (d.cachedTransparency t).1 := by
  unfold Doc.cachedTransparency
  cases t with
  | none => exact NF.refl d
  | some t => exact NF.saveTransparency d t

theorem NF.cacheImage (d : Doc) (id i : Nat) : NF M d (d.cacheImage id i) :=
  NF.upd d procIdx (Obj.addXobj i) (Obj.ident_addXobj _)
theorem NF.addSMaskImage (d : Doc) (i : Nat) : NF M d (d.addSMaskImage i) :=
  (NF.add d _).trans (NF.upd _ _ _ (Obj.ident_setSMask _))
theorem NF.addPalette (d : Doc) (i : Nat) : NF M d (d.addPalette i) :=
  (NF.add d _).trans (NF.upd _ _ _ (Obj.ident_setRGB _))

theorem NF.register (d : Doc) (id i : Nat) (a x : Bool) : NF M d (d.register id i a x) := by
  unfold Doc.register
  simp only []
  refine (NF.cacheImage d id i).trans ?_
  split <;> split
  · exact (NF.addSMaskImage _ _).trans (NF.addPalette _ _)
  · exact NF.addPalette _ _
  · exact NF.addSMaskImage _ _
  · exact NF.refl _

theorem NF.imageByHolder (d : Doc) (tag : Nat) (img : Img) (gs : List Nat) (split : Bool) (hM : ∀ a x, img.parsed = some (a, x) → M ⟨false, a, x, split⟩ img.id) :
    NF M d (d.imageByHolder tag img gs split).1 := by
  unfold Doc.imageByHolder
  split
  · exact NF.appendPaged d _
  · split
    · exact NF.refl d
    · next hasAlpha indexed hp =>
      simp only []
      have h0 := NF.add (M := M) d (.image img.id ⟨false, hasAlpha, indexed, split⟩ none none) (by simp [Special, Obj.ident, hM _ _ hp])
      generalize hd1 : d.add (.image img.id ⟨false, hasAlpha, indexed, split⟩ none none) = d1 at h0
      have h1 := h0.trans (NF.appendPaged d1 { tag := tag, xobj := some (d.objs.length + 1), gs := gs })
      generalize hap : d1.appendPaged { tag := tag, xobj := some (d.objs.length + 1), gs := gs } = ap at h1
      obtain ⟨d2, o⟩ := ap
      cases o with
      | ok =>
        exact h1.trans (NF.register d2 img.id d.objs.length hasAlpha indexed)
      | err => exact h1
      | panic => exact h1

theorem NF.softMask (d : Doc) (g : Nat) : NF M d (d.softMask g).1 := by
  unfold Doc.softMask
  split
  · exact NF.refl d
  · exact NF.add d _

theorem NF.maskGroup {tag : Nat} (d : Doc) (x : Nat) (gs : List Nat) : NF M d (d.maskGroup tag x gs).1 := by
  unfold Doc.maskGroup
  simp only []
  exact (NF.add d _).trans ((NF.softMask _ _).trans (NF.extGState _ _))

theorem NF.maskHolder {tag : Nat} (d : Doc) (img : Img) (gs : List Nat) (hM : ∀ a x, img.parsed = some (a, x) → M ⟨true, a, x, false⟩ img.id) : NF M d (d.maskHolder tag img gs).1 := by
  unfold Doc.maskHolder
  split
  · split
    · exact NF.getContent d
    · exact (NF.getContent d).trans (NF.maskGroup _ _ _)
  · split
    · exact NF.refl d
    · next hp =>
      simp only []
      split
      · exact (NF.add d _ (by simp [Special, Obj.ident, hM _ _ hp])).trans (NF.getContent _)
      · exact (((NF.add d _ (by simp [Special, Obj.ident, hM _ _ hp])).trans (NF.getContent _)).trans (NF.cacheImage _ _ _)).trans (NF.maskGroup _ _ _)

theorem NF.imageWithOptions (d : Doc) (tag : Nat) (img : Img) (tr : Option Tr) (mask : Option (Img × Option Tr))
    (hM : ∀ m t, mask = some (m, t) → ∀ a x, m.parsed = some (a, x) → M ⟨true, a, x, false⟩ m.id)
    (hM' : ∀ a x, img.parsed = some (a, x) → M ⟨false, a, x, mask.isSome⟩ img.id) : NF M d (d.imageWithOptions tag img tr mask).1 := by
  unfold Doc.imageWithOptions
  simp only []
  refine (NF.cachedTransparency d tr).trans ?_
  split
  · exact NF.imageByHolder _ _ _ _ _ hM'
  · next m mtr =>
    refine (NF.cachedTransparency _ mtr).trans ?_
    have h := NF.maskHolder (tag := tag) (M := M) ((d.cachedTransparency tr).1.cachedTransparency mtr).1 m
      ((d.cachedTransparency tr).1.cachedTransparency mtr).2.toList (hM m mtr rfl)
    revert h
    generalize Doc.maskHolder _ _ m _ = r
    obtain ⟨d', g, o⟩ := r
    intro h
    split
    · next heq => cases heq; exact h.trans (NF.imageByHolder _ _ _ _ _ hM')
    · next _ heq => cases heq; exact h

theorem NF.addColorSpace (d : Doc) (n : Nat) : NF M d (d.addColorSpace n).1 := by
  unfold Doc.addColorSpace
  simp only []
  split
  · exact NF.add d _
  · exact (NF.add d _).trans (NF.upd _ procIdx _ (Obj.ident_addCSRel _))

theorem NF.addLink (d : Doc) (a : Option Nat) : NF M d (d.addLink a).1 := by
  unfold Doc.addLink
  split
  · exact NF.refl d
  · exact (NF.add d _).trans (NF.upd _ _ _ (Obj.ident_addLinkId _))

theorem NF.addOutline (d : Doc) (t : Nat) : NF M d (d.addOutline t) := by
  unfold Doc.addOutline
  simp only []
  split
  · exact (NF.add d _).trans (NF.upd _ _ _ (Obj.ident_addOutlineId _))
  · exact ((NF.add d _).trans (NF.upd _ _ _ (Obj.ident_addOutlineId _))).trans (NF.upd _ _ _ (Obj.ident_setNext _))

theorem NF.setFont (d : Doc) (f s : Nat) : NF M d (d.setFont f s).1 := by
  unfold Doc.setFont; split <;> exact NF.refl d

theorem NF.setColorSpace (d : Doc) (t n : Nat) : NF M d (d.setColorSpace t n).1 := by
  unfold Doc.setColorSpace
  split
  · exact NF.append d _
  · exact NF.refl d

theorem NF.setPage (d : Doc) (k : Nat) : NF M d (d.setPage k).1 := by
  unfold Doc.setPage
  split <;> exact NF.refl d

theorem nf_step (d : Doc) (op : Op) (hf : ∀ f s b, op ≠ .addFont f s b)
    (hM : ∀ m id, Makes op m id → M m id) : NF M d (step d op).1 := by
  cases op with
  | addPage => exact NF.of_append (l := [.page [] [] (procIdx + 1)]) (by simp [step, Doc.addPage, Doc.idents, Doc.add, Obj.ident])
  | draw tag np => simp only [step]; split; exact NF.appendPaged d _; exact NF.append d _
  | drawTr tag tr => exact (NF.cachedTransparency d tr).trans (NF.appendPaged _ _)
  | text tag =>
    simp only [step]; split
    · exact NF.refl d
    · exact NF.appendPaged d _
  | cell tag tr =>
    simp only [step]
    refine (NF.cachedTransparency d tr).trans ?_
    split
    · exact NF.refl _
    · exact NF.appendPaged _ _
  | setTransparency t => exact NF.saveTransparency d t
  | clearTransparency => exact NF.refl d
  | addFont f s ok => exact absurd rfl (hf f s ok)
  | setFont f s => exact NF.setFont d f s
  | image tag img => exact NF.imageByHolder d _ _ _ _ fun a x hp => hM _ _ ⟨rfl, a, x, hp, rfl⟩
  | imageOpt tag img tr mask => 
    exact NF.imageWithOptions d _ _ _ _ (fun m t hm a x hp => hM _ _ (.inr ⟨m, t, a, x, hm, rfl, hp, rfl⟩)) fun a x hp => hM _ _ (.inl ⟨rfl, a, x, hp, rfl⟩)
  | addColorSpace n => exact NF.addColorSpace d n
  | setColorSpace tag n => exact NF.setColorSpace d tag n
  | externalLink => exact NF.addLink d _
  | internalLink a => exact NF.addLink d _
  | setAnchor n y => exact NF.refl d
  | addOutline t => exact NF.addOutline d t
  | importObjects n =>
    refine NF.of_append (l := (List.replicate n Obj.imported).map Obj.ident) (by simp [step, Doc.idents]) ?_
    intro o ho
    simp only [List.map_replicate] at ho
    rw [List.eq_of_mem_replicate ho]
    simp [Special, Obj.ident]
  | setPage k => exact NF.setPage d k
  | compile => exact NF.of_append (prepare_idents d) (by split <;> simp [Special])


/-- The fonts of a document were added with the styles of its AddTTFFont calls. -/
theorem font_styles {P : Nat → Prop} : ∀ (ops : List Op) (d : Doc), Base d → (∀ f s, Op.addFont f s true ∈ ops → P s) →
    (∀ f s c cid uni, Obj.font f s c cid uni ∈ d.idents → P s) → ∀ f s c cid uni, Obj.font f s c cid uni ∈ (exec d ops).idents → P s
  | [], d, _, _, h => h
  | op :: ops, d, b, hop, h => by
    have b' : Base (step d op).1 := (both_step Base.stable.toStable0 ⟨b, b⟩ op (fun _ => Base.stable.prepare d b b)).1
    refine font_styles ops _ b' (fun f s hm => hop f s (List.mem_cons_of_mem _ hm)) ?_
    intro f s c cid uni hm
    by_cases hf : ∃ f' s' b', op = .addFont f' s' b'
    · obtain ⟨f', s', k, rfl⟩ := hf
      cases k with
      | false => exact h f s c cid uni hm
      | true =>
        have hp := hop f' s' (by simp)
        obtain ⟨cnt, hid, _⟩ := addFont_cases d b f' s'
        simp only [step, if_true] at hm
        rw [hid, List.mem_append] at hm
        rcases hm with hm | hm
        · exact h f s c cid uni hm
        · simp at hm
          obtain ⟨_, rfl, _⟩ := hm
          exact hp
    · exact h f s c cid uni (nf_step (M := fun _ _ => True) d op (fun f s b e => hf ⟨f, s, b, e⟩) (fun _ _ _ => trivial) _ hm trivial)

/-- Images come from the calls. -/
theorem image_ids : ∀ (ops : List Op) (d : Doc), Base d → (∀ op ∈ ops, ∀ m id, Makes op m id → M m id) →
    (∀ id m s r, Obj.image id m s r ∈ d.idents → M m id) →
    ∀ id m s r, Obj.image id m s r ∈ (exec d ops).idents → M m id
  | [], d, _, _, h => h
  | op :: ops, d, b, hop, h => by
    have b' : Base (step d op).1 := (both_step Base.stable.toStable0 ⟨b, b⟩ op (fun _ => Base.stable.prepare d b b)).1
    refine image_ids ops _ b' (fun op hm => hop op (List.mem_cons_of_mem _ hm)) ?_
    intro id m s r hm
    refine Classical.byContradiction fun hM => ?_
    by_cases hf : ∃ f' s' b', op = .addFont f' s' b'
    · obtain ⟨f', s', k, rfl⟩ := hf
      cases k with
      | false => exact hM (h id m s r hm)
      | true =>
        obtain ⟨cnt, hid, _⟩ := addFont_cases d b f' s'
        simp only [step, if_true] at hm
        rw [hid, List.mem_append] at hm
        rcases hm with hm | hm
        · exact hM (h id m s r hm)
        · simp at hm
    · exact hM (h id m s r (nf_step d op (fun f s b e => hf ⟨f, s, b, e⟩) (hop op (by simp)) _ hm hM))

end Verif.Doc
