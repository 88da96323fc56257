import Verif.Lemmas.Doc.Names
/- What keeps the current font and the current transparency. -/
namespace Verif.Doc

/-- The current font and transparency unchanged. -/
def CU (d d' : Doc) : Prop := d'.curTr = d.curTr ∧ d'.curFont = d.curFont

theorem CU.of_eq {d d' : Doc} (h : d'.curTr = d.curTr) (h' : d'.curFont = d.curFont) : CU d d' := ⟨h, h'⟩
theorem CU.refl (d : Doc) : CU d d := ⟨rfl, rfl⟩
theorem CU.trans {a b c : Doc} (h : CU a b) (h' : CU b c) : CU a c := ⟨h'.1.trans h.1, h'.2.trans h.2⟩

theorem CU.add (d : Doc) (o : Obj) : CU d (d.add o) := .of_eq rfl rfl
theorem CU.upd (d : Doc) (i : Nat) (f : Obj → Obj) : CU d (d.upd i f) := .of_eq rfl rfl
theorem CU.getContent (d : Doc) : CU d d.getContent.1 := by
  unfold Doc.getContent; split <;> exact .of_eq rfl rfl
theorem CU.append (d : Doc) (e : Entry) : CU d (d.append e) := (CU.getContent d).trans (.of_eq rfl rfl)
theorem CU.appendPaged (d : Doc) (e : Entry) : CU d (d.appendPaged e).1 := by
  unfold Doc.appendPaged; split
  · exact CU.getContent _
  · exact CU.append _ _
theorem CU.extGState (d : Doc) (k : GKey) : CU d (d.extGState k).1 := by
  unfold Doc.extGState; split <;> exact .of_eq rfl rfl
theorem CU.saveTransparency (d : Doc) (t : Tr) : CU d (d.saveTransparency t).1 := by
  unfold Doc.saveTransparency
  split
  · exact CU.refl _
  · split
    · exact CU.refl _
    · have hx := CU.extGState d (.alpha t.alpha3 t.blend)
      exact hx
theorem CU.cachedTransparency (d : Doc) (t : Option Tr) : CU d (d.cachedTransparency t).1 := by
  cases t with
  | none => exact CU.refl d
  | some t => exact CU.saveTransparency d t
theorem CU.register (d : Doc) (id i : Nat) (a x : Bool) : CU d (d.register id i a x) := by
  cases a <;> cases x <;> exact .of_eq rfl rfl
theorem CU.imageByHolder (d : Doc) (tag : Nat) (img : Img) (gs : List Nat) (split : Bool) : CU d (d.imageByHolder tag img gs split).1 := by
  unfold Doc.imageByHolder
  split
  · exact CU.appendPaged d _
  · split
    · exact CU.refl d
    · next hasAlpha indexed _ =>
      simp only []
      have h0 := CU.add d (.image img.id ⟨false, hasAlpha, indexed, split⟩ none none)
      generalize hd1 : d.add (.image img.id ⟨false, hasAlpha, indexed, split⟩ none none) = d1 at h0
      have h1 := h0.trans (CU.appendPaged d1 { tag := tag, xobj := some (d.objs.length + 1), gs := gs })
      generalize hap : d1.appendPaged { tag := tag, xobj := some (d.objs.length + 1), gs := gs } = ap at h1
      obtain ⟨d2, o⟩ := ap
      cases o with
      | ok => exact h1.trans (CU.register d2 img.id d.objs.length hasAlpha indexed)
      | err => exact h1
      | panic => exact h1
theorem CU.softMask (d : Doc) (g : Nat) : CU d (d.softMask g).1 := by
  unfold Doc.softMask; split <;> exact .of_eq rfl rfl
theorem CU.maskGroup {tag : Nat} (d : Doc) (x : Nat) (gs : List Nat) : CU d (d.maskGroup tag x gs).1 := by
  unfold Doc.maskGroup
  simp only []
  exact (CU.add d _).trans ((CU.softMask _ _).trans (CU.extGState _ _))
theorem CU.maskHolder {tag : Nat} (d : Doc) (img : Img) (gs : List Nat) : CU d (d.maskHolder tag img gs).1 := by
  unfold Doc.maskHolder
  split
  · split
    · exact CU.getContent d
    · exact (CU.getContent d).trans (CU.maskGroup _ _ _)
  · split
    · exact CU.refl d
    · simp only []
      split
      · exact (CU.add d _).trans (CU.getContent _)
      · exact (((CU.add d _).trans (CU.getContent _)).trans (CU.register _ _ _ _ _)).trans (CU.maskGroup _ _ _)
theorem CU.imageWithOptions (d : Doc) (tag : Nat) (img : Img) (tr : Option Tr) (mask : Option (Img × Option Tr)) :
    CU d (d.imageWithOptions tag img tr mask).1 := by
  unfold Doc.imageWithOptions
  simp only []
  refine (CU.cachedTransparency d tr).trans ?_
  split
  · exact CU.imageByHolder _ _ _ _ _
  · next m mtr =>
    refine (CU.cachedTransparency _ mtr).trans ?_
    have h := CU.maskHolder (tag := tag) ((d.cachedTransparency tr).1.cachedTransparency mtr).1 m
      ((d.cachedTransparency tr).1.cachedTransparency mtr).2.toList
    revert h
    generalize Doc.maskHolder _ _ m _ = r
    obtain ⟨d', g, o⟩ := r
    intro h
    split
    · next heq => cases heq; exact h.trans (CU.imageByHolder _ _ _ _ _)
    · next _ heq => cases heq; exact h
theorem CU.prepare (d : Doc) : CU d d.prepare := by
  have h0 : ∀ c : Bool, CU d (if c then d.add .encryption else d) := fun c => by cases c <;> exact .of_eq rfl rfl
  have h1 : ∀ e : Doc, CU e e.markOutlines := fun e => by unfold Doc.markOutlines; (repeat' split) <;> exact .of_eq rfl rfl
  exact (CU.trans (h0 d.prot) (h1 _)).trans (.of_eq rfl rfl)

theorem cu_step (d : Doc) (op : Op) (h1 : ∀ t, op ≠ .setTransparency t) (h2 : op ≠ .clearTransparency)
    (h3 : ∀ f s, op ≠ .setFont f s) : CU d (Doc.step d op).1 := by
  cases op with
  | addPage => exact .of_eq rfl rfl
  | draw tag n =>
    simp only [Doc.step]; split
    · exact CU.appendPaged _ _
    · exact CU.append _ _
  | drawTr tag tr => exact (CU.cachedTransparency d tr).trans (CU.appendPaged _ _)
  | text tag =>
    simp only [Doc.step]; split
    · exact CU.refl _
    · exact CU.appendPaged _ _
  | cell tag tr =>
    simp only [Doc.step]
    refine (CU.cachedTransparency d tr).trans ?_
    split
    · exact CU.refl _
    · exact CU.appendPaged _ _
  | setTransparency t => exact absurd rfl (h1 t)
  | clearTransparency => exact absurd rfl h2
  | addFont f s ok =>
    simp only [Doc.step]
    split
    · unfold Doc.addFont
      simp only []
      first | exact .of_eq rfl rfl | (split <;> exact .of_eq rfl rfl)
    · exact CU.refl _
  | setFont f s => exact absurd rfl (h3 f s)
  | image tag img => exact CU.imageByHolder _ _ _ _ _
  | imageOpt tag img tr mask => exact CU.imageWithOptions d tag img tr mask
  | addColorSpace n => simp only [Doc.step, Doc.addColorSpace]; split <;> exact .of_eq rfl rfl
  | setColorSpace tag n =>
    simp only [Doc.step, Doc.setColorSpace]; split
    · exact CU.append _ _
    · exact .of_eq rfl rfl
  | externalLink => simp only [Doc.step, Doc.addLink]; split <;> exact .of_eq rfl rfl
  | internalLink a => simp only [Doc.step, Doc.addLink]; split <;> exact .of_eq rfl rfl
  | setAnchor n y => exact .of_eq rfl rfl
  | addOutline t => simp only [Doc.step, Doc.addOutline]; split <;> exact .of_eq rfl rfl
  | importObjects n => exact .of_eq rfl rfl
  | setPage k => simp only [Doc.step, Doc.setPage]; split <;> exact .of_eq rfl rfl
  | compile => exact CU.prepare d

theorem CU.setTr (d : Doc) (t : Tr) : (Doc.step d (.setTransparency t)).1.curFont = d.curFont := (CU.saveTransparency d t).2

theorem CU.setFont (d : Doc) (f s : Nat) : (Doc.step d (.setFont f s)).1.curTr = d.curTr := by
  simp only [Doc.step, Doc.setFont]; split <;> rfl

/-! ### Names keep their meaning -/

theorem Grow.refl (d : Doc) : Grow d d := Grow.of_proc rfl
theorem Grow.trans {a b c : Doc} (h : Grow a b) (h' : Grow b c) : Grow a c :=
  ⟨h.fonts.trans h'.fonts, h.css.trans h'.css, h.xobjs.trans h'.xobjs, h.gss.trans h'.gss⟩

/-- The resource dictionary only grows. -/
theorem Grow.stable (d₀ : Doc) : Stable (Grow d₀) where
  addPage := fun d b h => h.trans (Grow.of_proc (proc_add b _))
  mkContent := fun d b h _ => h.trans (Grow.of_proc (Fr.getContent b).proc)
  entry := fun d i e b h _ _ => h.trans (Grow.of_proc (Fr.entry b i e).proc)
  newGS := fun d k b h hn _ => by
    obtain ⟨e1, e2, e3, e4⟩ := rel_newGS b hn
    exact h.trans ⟨by rw [e1]; exact List.prefix_refl _, by rw [e2]; exact List.prefix_refl _,
      by rw [e3]; exact List.prefix_refl _, by rw [e4]; exact List.prefix_append _ _⟩
  newTr := fun d a c i b h _ _ => h.trans (Grow.of_proc rfl)
  setTr := fun d g b h _ => h.trans (Grow.of_proc rfl)
  addImage := fun d _ _ b h _ => h.trans (Grow.of_proc (Fr.add b _).proc)
  register := fun d id m i b h _ _ => by
    obtain ⟨e1, e2, e3, e4⟩ := rel_register b id i (!m.isMask && m.alpha) (!m.isMask && m.indexed)
    exact h.trans ⟨by rw [e1]; exact List.prefix_refl _, by rw [e2]; exact List.prefix_refl _,
      by rw [e3]; exact List.prefix_append _ _, by rw [e4]; exact List.prefix_refl _⟩
  group := fun d e b h _ => h.trans (Grow.of_proc (Fr.add b _).proc)
  softMask := fun d g b h _ _ => h.trans (Grow.of_proc (Fr.softMask b g).proc)
  addFont := fun d f s b h => by
    obtain ⟨cnt, hid, hcase⟩ := addFont_cases d b f s
    rcases hcase with ⟨_, hp, _, _⟩ | ⟨_, _, e1, e2, e3, e4, _⟩
    · exact h.trans (Grow.of_proc hp)
    · exact h.trans ⟨by rw [e1]; exact List.prefix_append _ _, by rw [e2]; exact List.prefix_refl _,
        by rw [e3]; exact List.prefix_refl _, by rw [e4]; exact List.prefix_refl _⟩
  setFont := fun d f s b h => h.trans (Grow.of_proc (by rw [setFont_fields]; rfl))
  addColorSpace := fun d n b h => by
    rcases addColorSpace_cases d b n with ⟨⟨r, hr, hrn⟩, e⟩ | ⟨hnew, _, hid, e2, e1, e3, e4, hf⟩
    · rw [e]; exact h.trans (Grow.of_proc (Fr.add b _).proc)
    · exact h.trans ⟨by rw [e1]; exact List.prefix_refl _, by rw [e2]; exact List.prefix_append _ _,
        by rw [e3]; exact List.prefix_refl _, by rw [e4]; exact List.prefix_refl _⟩
  addLink := fun d a b h => h.trans (Grow.of_proc (Fr.addLink b a).proc)
  setAnchor := fun d n y b h => h.trans (Grow.of_proc rfl)
  addOutline := fun d t b h => h.trans (Grow.of_proc (Fr.addOutline b t).proc)
  imported := fun d b h => h.trans (Grow.of_proc (Fr.add b _).proc)
  setPage := fun d k b h => h.trans (Grow.of_proc (by rw [setPage_fields]; rfl))
  prepare := fun d b h => h.trans (Grow.of_proc (Fr.prepare b).proc)

theorem grow_exec {d : Doc} (b : Base d) (ops : List Op) : Grow d (exec d ops) := (both_exec (Grow.stable d) ⟨b, Grow.refl d⟩ ops).2

theorem grow_step {d : Doc} (b : Base d) (op : Op) : Grow d (step d op).1 := grow_exec b [op]

end Verif.Doc
