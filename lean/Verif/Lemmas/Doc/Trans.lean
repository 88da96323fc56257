import Verif.Lemmas.Doc.Last
import Verif.Spec.DocTrans
namespace Verif.Doc

/-- The current transparency unchanged, no new cache entry with alpha 1.000. -/
def TX (d d' : Doc) : Prop := d'.curTr = d.curTr ∧ ∀ x ∈ d'.trs, x ∈ d.trs ∨ x.1.1 ≠ 1000

theorem TX.of_eq {d d' : Doc} (h : d'.curTr = d.curTr) (h' : d'.trs = d.trs) : TX d d' :=
  ⟨h, fun x hx => Or.inl (h' ▸ hx)⟩
theorem TX.refl (d : Doc) : TX d d := .of_eq rfl rfl
theorem TX.trans {a b c : Doc} (h : TX a b) (h' : TX b c) : TX a c :=
  ⟨h'.1.trans h.1, fun x hx => (h'.2 x hx).elim (fun h1 => h.2 x h1) Or.inr⟩

theorem TX.add (d : Doc) (o : Obj) : TX d (d.add o) := .of_eq rfl rfl
theorem TX.upd (d : Doc) (i : Nat) (f : Obj → Obj) : TX d (d.upd i f) := .of_eq rfl rfl
theorem TX.getContent (d : Doc) : TX d d.getContent.1 := by
  unfold Doc.getContent; split <;> exact .of_eq rfl rfl
theorem TX.append (d : Doc) (e : Entry) : TX d (d.append e) := (TX.getContent d).trans (.of_eq rfl rfl)
theorem TX.appendPaged (d : Doc) (e : Entry) : TX d (d.appendPaged e).1 := by
  unfold Doc.appendPaged; split
  · exact TX.getContent _
  · exact TX.append _ _
theorem TX.extGState (d : Doc) (k : GKey) : TX d (d.extGState k).1 := by
  unfold Doc.extGState; split <;> exact .of_eq rfl rfl
theorem TX.saveTransparency (d : Doc) (t : Tr) (ht : t.sharp) : TX d (d.saveTransparency t).1 := by
  unfold Doc.saveTransparency
  split
  · exact TX.refl _
  · split
    · exact TX.refl _
    · next h1 =>
      have hx := TX.extGState d (.alpha t.alpha3 t.blend)
      refine ⟨hx.1, ?_⟩
      intro x hm
      simp only [List.mem_append, List.mem_singleton] at hm
      rcases hm with hm | hm
      · exact hx.2 x hm
      · right; subst hm; intro hc; exact h1 (ht.2 hc)
theorem TX.cachedTransparency (d : Doc) (t : Option Tr) (ht : ∀ x ∈ t.toList, x.sharp) : TX d (d.cachedTransparency t).1 := by
  cases t with
  | none => exact TX.refl d
  | some t => exact TX.saveTransparency d t (ht t (by simp))
theorem TX.register (d : Doc) (id i : Nat) (a x : Bool) : TX d (d.register id i a x) := by
  cases a <;> cases x <;> exact .of_eq rfl rfl
theorem TX.imageByHolder (d : Doc) (tag : Nat) (img : Img) (gs : List Nat) (split : Bool) : TX d (d.imageByHolder tag img gs split).1 := by
  unfold Doc.imageByHolder
  split
  · exact TX.appendPaged d _
  · split
    · exact TX.refl d
    · next hasAlpha indexed _ =>
      simp only []
      have h0 := TX.add d (.image img.id ⟨false, hasAlpha, indexed, split⟩ none none)
      generalize hd1 : d.add (.image img.id ⟨false, hasAlpha, indexed, split⟩ none none) = d1 at h0
      have h1 := h0.trans (TX.appendPaged d1 { tag := tag, xobj := some (d.objs.length + 1), gs := gs })
      generalize hap : d1.appendPaged { tag := tag, xobj := some (d.objs.length + 1), gs := gs } = ap at h1
      obtain ⟨d2, o⟩ := ap
      cases o with
      | ok => exact h1.trans (TX.register d2 img.id d.objs.length hasAlpha indexed)
      | err => exact h1
      | panic => exact h1
theorem TX.softMask (d : Doc) (g : Nat) : TX d (d.softMask g).1 := by
  unfold Doc.softMask; split <;> exact .of_eq rfl rfl
theorem TX.maskGroup {tag : Nat} (d : Doc) (x : Nat) (gs : List Nat) : TX d (d.maskGroup tag x gs).1 := by
  unfold Doc.maskGroup
  simp only []
  exact (TX.add d _).trans ((TX.softMask _ _).trans (TX.extGState _ _))
theorem TX.maskHolder {tag : Nat} (d : Doc) (img : Img) (gs : List Nat) : TX d (d.maskHolder tag img gs).1 := by
  unfold Doc.maskHolder
  split
  · split
    · exact TX.getContent d
    · exact (TX.getContent d).trans (TX.maskGroup _ _ _)
  · split
    · exact TX.refl d
    · simp only []
      split
      · exact (TX.add d _).trans (TX.getContent _)
      · exact (((TX.add d _).trans (TX.getContent _)).trans (TX.register _ _ _ _ _)).trans (TX.maskGroup _ _ _)
theorem TX.imageWithOptions (d : Doc) (tag : Nat) (img : Img) (tr : Option Tr) (mask : Option (Img × Option Tr))
    (ht : ∀ t ∈ (Op.imageOpt tag img tr mask).settings, t.sharp) : TX d (d.imageWithOptions tag img tr mask).1 := by
  unfold Doc.imageWithOptions
  simp only []
  refine (TX.cachedTransparency d tr (fun t h => ht t (by simp [Op.settings] at *; exact Or.inl h))).trans ?_
  split
  · exact TX.imageByHolder _ _ _ _ _
  · next m mtr =>
    refine (TX.cachedTransparency _ mtr (fun t h => ht t (by
      cases mtr with
      | none => simp at h
      | some x => simp [Op.settings] at *; exact Or.inr h))).trans ?_
    have h := TX.maskHolder (tag := tag) ((d.cachedTransparency tr).1.cachedTransparency mtr).1 m
      ((d.cachedTransparency tr).1.cachedTransparency mtr).2.toList
    revert h
    generalize Doc.maskHolder _ _ m _ = r
    obtain ⟨d', g, o⟩ := r
    intro h
    split
    · next heq => cases heq; exact h.trans (TX.imageByHolder _ _ _ _ _)
    · next _ heq => cases heq; exact h
theorem TX.prepare (d : Doc) : TX d d.prepare := by
  have h0 : ∀ c : Bool, TX d (if c then d.add .encryption else d) := fun c => by cases c <;> exact .of_eq rfl rfl
  have h1 : ∀ e : Doc, TX e e.markOutlines := fun e => by unfold Doc.markOutlines; (repeat' split) <;> exact .of_eq rfl rfl
  exact (TX.trans (h0 d.prot) (h1 _)).trans (.of_eq rfl rfl)

theorem TX.step (d : Doc) (op : Op) (h1 : ∀ t, op ≠ .setTransparency t) (h2 : op ≠ .clearTransparency)
    (ht : ∀ t ∈ op.settings, t.sharp) : TX d (step d op).1 := by
  cases op with
  | addPage => exact .of_eq rfl rfl
  | draw tag n =>
    simp only [Doc.step]; split
    · exact TX.appendPaged _ _
    · exact TX.append _ _
  | drawTr tag tr => exact (TX.cachedTransparency d tr ht).trans (TX.appendPaged _ _)
  | text tag =>
    simp only [Doc.step]; split
    · exact TX.refl _
    · exact TX.appendPaged _ _
  | cell tag tr =>
    simp only [Doc.step]
    refine (TX.cachedTransparency d tr ht).trans ?_
    split
    · exact TX.refl _
    · exact TX.appendPaged _ _
  | setTransparency t => exact absurd rfl (h1 t)
  | clearTransparency => exact absurd rfl h2
  | addFont f s ok =>
    simp only [Doc.step]
    split
    · unfold Doc.addFont
      simp only []
      first | exact .of_eq rfl rfl | (split <;> exact .of_eq rfl rfl)
    · exact TX.refl _
  | setFont f s => simp only [Doc.step, Doc.setFont]; split <;> exact .of_eq rfl rfl
  | image tag img => exact TX.imageByHolder _ _ _ _ _
  | imageOpt tag img tr mask => exact TX.imageWithOptions d tag img tr mask ht
  | addColorSpace n => simp only [Doc.step, Doc.addColorSpace]; split <;> exact .of_eq rfl rfl
  | setColorSpace tag n =>
    simp only [Doc.step, Doc.setColorSpace]; split
    · exact TX.append _ _
    · exact .of_eq rfl rfl
  | externalLink => simp only [Doc.step, Doc.addLink]; split <;> exact .of_eq rfl rfl
  | internalLink a => simp only [Doc.step, Doc.addLink]; split <;> exact .of_eq rfl rfl
  | setAnchor n y => exact .of_eq rfl rfl
  | addOutline t => simp only [Doc.step, Doc.addOutline]; split <;> exact .of_eq rfl rfl
  | importObjects n => exact .of_eq rfl rfl
  | setPage k => simp only [Doc.step, Doc.setPage]; split <;> exact .of_eq rfl rfl
  | compile => exact TX.prepare d

/-- The invariant: the current transparency is the graphics state of the setting in effect. -/
structure TrOK (d : Doc) (s : Option (Nat × Nat)) : Prop where
  cur : d.AppliesAlpha d.curTr.toList s
  keys : ∀ x ∈ d.trs, x.1.1 ≠ 1000

theorem objAt_gs_ext {d d' : Doc} (h : Ext d d') {n : Nat} {k : GKey} (hn : d.objAt n = some (.extGS k)) :
    d'.objAt n = some (.extGS k) := by
  cases n with
  | zero => simp [Doc.objAt] at hn
  | succ i =>
    rw [objAt_succ] at hn
    have := prefix_get h (ident_at hn)
    unfold Doc.idents at this
    rw [List.getElem?_map] at this
    obtain ⟨o, ho, e⟩ := Option.map_eq_some_iff.1 this
    rw [objAt_of ho, ident_gs e]

theorem AppliesAlpha.ext {d d' : Doc} (h : Ext d d') {gs : List Nat} {s : Option (Nat × Nat)} (hs : d.AppliesAlpha gs s) :
    d'.AppliesAlpha gs s := by
  cases s with
  | none => exact hs
  | some ab => obtain ⟨n, h1, h2⟩ := hs; exact ⟨n, h1, objAt_gs_ext h h2⟩

theorem saveTransparency_applies {d : Doc} (b : Base d) (b' : Base (d.saveTransparency t).1) (hk : ∀ x ∈ d.trs, x.1.1 ≠ 1000) (ht : t.sharp) :
    (d.saveTransparency t).1.AppliesAlpha (d.saveTransparency t).2.toList t.wants := by
  cases h1 : t.isOne with
  | false =>
    obtain ⟨i, h2, h3⟩ := saveTransparency_at b t h1
    simp only [Tr.wants, h1, Bool.false_eq_true, if_false, Doc.AppliesAlpha]
    exact ⟨i + 1, by rw [h2]; rfl, gs_objAt b' h3⟩
  | true =>
    simp only [Tr.wants, h1, if_true, Doc.AppliesAlpha]
    unfold Doc.saveTransparency
    cases hc : assoc d.trs (t.alpha3, t.blend) with
    | some n => exact absurd (ht.1 h1) (hk _ (assoc_mem hc))
    | none => simp [h1]

theorem cachedTransparency_applies {d : Doc} (b : Base d) {s : Option (Nat × Nat)} (hs : TrOK d s) (tr : Option Tr)
    (ht : ∀ t ∈ tr.toList, t.sharp) :
    (d.cachedTransparency tr).1.AppliesAlpha (d.cachedTransparency tr).2.toList (callSetting s tr) := by
  cases tr with
  | none => exact hs.cur
  | some t =>
    have S : Stable0 (fun _ : Doc => True) := by constructor <;> intros <;> trivial
    obtain ⟨b1, _, _, _⟩ := both_saveTransparency S ⟨b, trivial⟩ t
    exact saveTransparency_applies b b1.1 hs.keys (ht t (by simp))

theorem TrOK.step {d : Doc} (h : Reachable d) {s : Option (Nat × Nat)} (hs : TrOK d s) (op : Op)
    (ht : ∀ t ∈ op.settings, t.sharp) : TrOK (step d op).1 (inEffect s [op]) := by
  by_cases h1 : ∃ t, op = .setTransparency t
  · obtain ⟨t, rfl⟩ := h1
    have ht' := ht t (by simp [Op.settings])
    have b' := reachable_base (h.step (.setTransparency t))
    have S : Stable0 (fun _ : Doc => True) := by constructor <;> intros <;> trivial
    obtain ⟨b1, _, _, _⟩ := both_saveTransparency S ⟨reachable_base h, trivial⟩ t
    have key := saveTransparency_applies (reachable_base h) b1.1 hs.keys ht'
    refine ⟨?_, ?_⟩
    · show Doc.AppliesAlpha _ (d.saveTransparency t).2.toList t.wants
      exact AppliesAlpha.ext (Ext.of_eq rfl) key
    · intro x hx
      exact ((TX.saveTransparency d t ht').2 x hx).elim (hs.keys x) id
  · by_cases h2 : op = .clearTransparency
    · subst h2; exact ⟨rfl, hs.keys⟩
    · have hx := TX.step d op (fun t e => h1 ⟨t, e⟩) h2 ht
      have e : inEffect s [op] = s := by cases op <;> simp [inEffect] at * 
      rw [e]
      refine ⟨?_, fun x hm => (hx.2 x hm).elim (hs.keys x) id⟩
      rw [hx.1]
      exact AppliesAlpha.ext (step_ext d op) hs.cur

theorem inEffect_append (s : Option (Nat × Nat)) (h h' : List Op) : inEffect s (h ++ h') = inEffect (inEffect s h) h' := by
  induction h generalizing s with
  | nil => rfl
  | cons op h ih => cases op <;> simp [inEffect, ih]

theorem exec_trOK (h : List Op) {d : Doc} (hr : Reachable d) {s : Option (Nat × Nat)} (hs : TrOK d s)
    (ht : ∀ op ∈ h, ∀ t ∈ op.settings, t.sharp) : TrOK (exec d h) (inEffect s h) := by
  induction h generalizing d s with
  | nil => exact hs
  | cons op h ih =>
    have := ih (hr.step op) (TrOK.step hr hs op (ht op (by simp))) (fun o ho => ht o (by simp [ho]))
    have e : inEffect s (op :: h) = inEffect (inEffect s [op]) h := inEffect_append s [op] h
    rw [e]; exact this

theorem appendPaged_applies {d : Doc} (b : Base d) (e : Entry) {s : Option (Nat × Nat)} (hs : d.AppliesAlpha e.gs s)
    (hok : (d.appendPaged e).2 = .ok) :
    (d.appendPaged e).1.lastEntry = some e ∧ (d.appendPaged e).1.AppliesAlpha e.gs s := by
  have hx := Ext.appendPaged d e
  refine ⟨?_, AppliesAlpha.ext hx hs⟩
  unfold Doc.appendPaged at hok ⊢
  split
  · next h => rw [if_pos h] at hok; simp at hok
  · exact (lastEntry_append b e).1

end Verif.Doc
namespace Verif.Doc

/-- `n` names a soft mask graphics state whose group, made by call `tag`, draws the image with the given id under `gs`. -/
def MaskAt (d : Doc) (tag n id : Nat) (gs : List Nat) : Prop :=
  ∃ i m g x info, n = i + 1 ∧ d.idents[i]? = some (.extGS (.smask m)) ∧ d.idents[m]? = some (.softMask g) ∧
    d.idents[g]? = some (.group [{ tag := 0, xobj := some (x + 1), gs := gs, mask := tag }]) ∧
    d.idents[x]? = some (.image id info none none)

theorem MaskAt.ext {d d' : Doc} {tag n id : Nat} {gs : List Nat} (hx : Ext d d') (h : MaskAt d tag n id gs) : MaskAt d' tag n id gs := by
  obtain ⟨i, m, g, x, info, h0, h1, h2, h3, h4⟩ := h
  exact ⟨i, m, g, x, info, h0, prefix_get hx h1, prefix_get hx h2, prefix_get hx h3, prefix_get hx h4⟩

theorem maskGroup_at {tag : Nat} {d : Doc} (b : Base d) (b' : Base (d.maskGroup tag x gs).1) {id : Nat} (hx : (id, x) ∈ d.imgs) :
    MaskAt (d.maskGroup tag x gs).1 tag (d.maskGroup tag x gs).2 id gs := by
  obtain ⟨info, hi⟩ := b.imgs id x hx
  have hi' := prefix_get (Ext.maskGroup (tag := tag) d x gs) hi
  revert b' hi'
  unfold Doc.maskGroup
  simp only []
  have hid : (d.add (.group [{ tag := 0, xobj := some (x + 1), gs := gs, mask := tag }])).idents[d.objs.length]? =
      some (.group [{ tag := 0, xobj := some (x + 1), gs := gs, mask := tag }]) := by
    rw [idents_add]; simp [Obj.ident, ← idents_len d]
  generalize d.add (.group [{ tag := 0, xobj := some (x + 1), gs := gs, mask := tag }]) = d1 at hid
  obtain ⟨m1, _, _⟩ := softMask_spec d1 d.objs.length
  have hid2 := prefix_get (Ext.softMask d1 d.objs.length) hid
  generalize d1.softMask d.objs.length = r2 at m1 hid2
  obtain ⟨d2, m⟩ := r2
  simp only [] at m1 hid2 ⊢
  have e1 := (extGState_spec d2 (.smask m)).1
  have e2 : (d2.extGState (.smask m)).1.masks = d2.masks := by unfold Doc.extGState; split <;> rfl
  have hid3 := prefix_get (Ext.extGState d2 (.smask m)) hid2
  intro b' hi'
  exact ⟨_, m, d.objs.length, x, info, rfl, b'.gss _ _ e1, b'.masks _ _ (by rw [e2]; exact m1), hid3, hi'⟩

theorem maskHolder_at {tag : Nat} {d : Doc} (b : Base d) (img : Img) (gs : List Nat) (n : Nat)
    (hgs : ∀ n ∈ gs, ∃ k i, n = i + 1 ∧ (k, i) ∈ d.gss) (hn : (d.maskHolder tag img gs).2.1 = some n) :
    MaskAt (d.maskHolder tag img gs).1 tag n img.id gs := by
  have S : Stable0 (fun _ : Doc => True) := by constructor <;> intros <;> trivial
  have b' := (both_maskHolder (tag := tag) S ⟨b, trivial⟩ img gs hgs).1.1
  revert hn b'
  unfold Doc.maskHolder
  cases hc : assoc d.imgs img.id with
  | some i =>
    simp only []
    split
    · intro hn b'; simp at hn
    · have h1 := both_getContent (P := fun _ => True) ⟨b, trivial⟩ S
      have hx : (img.id, i) ∈ d.getContent.1.imgs := by rw [getContent_fields]; exact assoc_mem hc
      intro hn b'
      simp at hn; subst hn
      exact maskGroup_at h1.1 b' hx
  | none =>
    simp only []
    split
    · intro hn b'; simp at hn
    · next hasAlpha indexed _ =>
      have h1 : Both (fun _ => True) (d.add (.image img.id ⟨true, hasAlpha, indexed, false⟩ none none)) :=
        ⟨Base.stable.addImage d _ _ b b hc, trivial⟩
      have hi1 : (d.add (.image img.id ⟨true, hasAlpha, indexed, false⟩ none none)).objs[d.objs.length]? =
          some (.image img.id ⟨true, hasAlpha, indexed, false⟩ none none) := by
        simp [Doc.add]
      have hc1 : assoc (d.add (.image img.id ⟨true, hasAlpha, indexed, false⟩ none none)).imgs img.id = none := hc
      generalize d.add (.image img.id ⟨true, hasAlpha, indexed, false⟩ none none) = d1 at h1 hi1 hc1
      split
      · intro hn b'; simp at hn
      · have h2 := both_getContent h1 S
        have hc2 : assoc d1.getContent.1.imgs img.id = none := by rw [getContent_fields]; exact hc1
        have hi2 : d1.getContent.1.objs[d.objs.length]? = some (.image img.id ⟨true, hasAlpha, indexed, false⟩ none none) := by
          rw [getContent_objs, List.getElem?_append_left (lt_of_get hi1)]; exact hi1
        have h3 := both_register S h2 hc2 hi2
        simp only [Bool.not_true, Bool.false_and] at h3
        have hx : (img.id, d.objs.length) ∈ (d1.getContent.1.register img.id d.objs.length false false).imgs :=
          List.mem_append.2 (Or.inr (by simp))
        intro hn b'
        simp at hn; subst hn
        exact maskGroup_at h3.1 b' hx

theorem imageOpt_applies {d : Doc} (h : Reachable d) {s : Option (Nat × Nat)} (hs : TrOK d s) (tag : Nat) (img : Img)
    (tr : Option Tr) (mask : Option (Img × Option Tr))
    (ht : ∀ t ∈ (Op.imageOpt tag img tr mask).settings, t.sharp)
    (hok : (Verif.Doc.step d (.imageOpt tag img tr mask)).2 = .ok) :
    ∃ e gs1 gs2, (Verif.Doc.step d (.imageOpt tag img tr mask)).1.lastEntry = some e ∧ e.tag = tag ∧ e.gs = gs1 ++ gs2 ∧
      (Verif.Doc.step d (.imageOpt tag img tr mask)).1.AppliesAlpha gs1 (callSetting s tr) ∧
      (match mask with
       | none => gs2 = []
       | some (m, mtr) => ∃ n gs, gs2 = [n] ∧ MaskAt (Verif.Doc.step d (.imageOpt tag img tr mask)).1 tag n m.id gs ∧
          (Verif.Doc.step d (.imageOpt tag img tr mask)).1.AppliesAlpha gs (callSetting s mtr)) := by
  have S : Stable0 (fun _ : Doc => True) := by constructor <;> intros <;> trivial
  have ht1 : ∀ t ∈ tr.toList, t.sharp := fun t h => ht t (by simp [Op.settings] at *; exact Or.inl h)
  simp only [Verif.Doc.step, Doc.imageWithOptions] at hok ⊢
  obtain ⟨b1, _, _, _⟩ := both_cachedTransparency S ⟨reachable_base h, trivial⟩ tr
  have a1 := cachedTransparency_applies (reachable_base h) hs tr ht1
  have x1 := TX.cachedTransparency d tr ht1
  have E1 := Ext.cachedTransparency d tr
  cases mask with
  | none =>
    obtain ⟨e, i, h1, h2, h3, h4, h5⟩ := image_entry0 b1.1 tag img _ hok
    exact ⟨e, _, [], h1, h2, by rw [h4, List.append_nil], AppliesAlpha.ext (Ext.imageByHolder _ _ _ _ _) a1, rfl⟩
  | some mm =>
    obtain ⟨m, mtr⟩ := mm
    have ht2 : ∀ t ∈ mtr.toList, t.sharp := fun t h => ht t (by
      cases mtr with
      | none => simp at h
      | some x => simp [Op.settings] at *; exact Or.inr h)
    simp only [] at hok ⊢
    generalize d.cachedTransparency tr = r1 at *
    obtain ⟨d1, t1⟩ := r1
    simp only [] at *
    have hs1 : TrOK d1 s := ⟨by rw [x1.1]; exact AppliesAlpha.ext E1 hs.cur, fun x hm => (x1.2 x hm).elim (hs.keys x) id⟩
    obtain ⟨b2, g2, _, _⟩ := both_cachedTransparency S b1 mtr
    have a2 := cachedTransparency_applies b1.1 hs1 mtr ht2
    have E2 := Ext.cachedTransparency d1 mtr
    generalize d1.cachedTransparency mtr = r2 at *
    obtain ⟨d2, t2⟩ := r2
    simp only [] at *
    obtain ⟨b3, _, _⟩ := both_maskHolder (tag := tag) S b2 m _ g2
    have hso := maskHolder_ok (tag := tag) d2 m t2.toList
    have hma := maskHolder_at (tag := tag) b2.1 m t2.toList
    have E3 := Ext.maskHolder (tag := tag) d2 m t2.toList
    revert hok b3 hso hma E3
    generalize Doc.maskHolder _ _ m _ = r
    obtain ⟨d', g, o⟩ := r
    intro hok b3 hso hma E3
    simp only [] at *
    split at hok
    · next g3 heq =>
      cases heq
      obtain ⟨e, i, h1, h2, h3, h4, h5⟩ := image_entry0 b3.1 tag img _ hok
      have E4 := Ext.imageByHolder d' tag img (t1.toList ++ [g3]) true
      refine ⟨e, t1.toList, [g3], h1, h2, h4, AppliesAlpha.ext (E2.trans (E3.trans E4)) a1, g3, t2.toList, rfl, ?_, ?_⟩
      · exact MaskAt.ext E4 (hma g3 g2 rfl)
      · exact AppliesAlpha.ext (E3.trans E4) a2
    · next hno heq =>
      cases heq
      exfalso
      replace hok : o = .ok := hok
      subst hok
      cases g with
      | none => simpa using hso rfl
      | some g => exact hno g rfl rfl

end Verif.Doc
