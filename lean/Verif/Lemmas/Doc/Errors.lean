import Verif.Spec.Errors
import Verif.Lemmas.Doc.OnlyFonts
import Verif.Lemmas.Doc.OnlySpaces
import Verif.Lemmas.Doc.Panic
import Verif.Lemmas.Doc.Last
/- Which calls return errors. -/
namespace Verif.Doc

theorem base_step {d : Doc} (b : Base d) (op : Op) : Base (step d op).1 :=
  (both_step Base.stable.toStable0 ⟨b, b⟩ op (fun _ => Base.stable.prepare d b b)).1

/-- The fonts of a document were added by its AddTTFFont calls. -/
theorem fonts_made {P : Nat → Nat → Prop} : ∀ (ops : List Op) (d : Doc), Base d → (∀ f s, Op.addFont f s true ∈ ops → P f s) →
    (∀ f s c cid uni, Obj.font f s c cid uni ∈ d.idents → P f s) → ∀ f s c cid uni, Obj.font f s c cid uni ∈ (exec d ops).idents → P f s
  | [], _, _, _, h => h
  | op :: ops, d, b, hop, h => by
    refine fonts_made ops _ (base_step b op) (fun f s hm => hop f s (List.mem_cons_of_mem _ hm)) ?_
    intro f s c cid uni hm
    by_cases hf : ∃ f' s' b', op = .addFont f' s' b'
    · obtain ⟨f', s', k, rfl⟩ := hf
      cases k with
      | false => exact h f s c cid uni hm
      | true =>
        have hp := hop f' s' (by simp)
        obtain ⟨cnt, hid, _⟩ := addFont_cases d b f' s'
        simp only [step, if_true] at hm
        rw [hid, List.mem_append] at hm
        rcases hm with hm | hm
        · exact h f s c cid uni hm
        · simp at hm
          obtain ⟨rfl, rfl, _⟩ := hm
          exact hp
    · exact h f s c cid uni (nf_step (M := fun _ _ => True) d op (fun f s b e => hf ⟨f, s, b, e⟩) (fun _ _ _ => trivial) _ hm trivial)

theorem spaces_made {P : Nat → Prop} : ∀ (ops : List Op) (d : Doc), Base d → (∀ n, Op.addColorSpace n ∈ ops → P n) →
    (∀ n c, Obj.colorSpace n c ∈ d.idents → P n) → ∀ n c, Obj.colorSpace n c ∈ (exec d ops).idents → P n
  | [], _, _, _, h => h
  | op :: ops, d, b, hop, h => by
    refine spaces_made ops _ (base_step b op) (fun n hm => hop n (List.mem_cons_of_mem _ hm)) ?_
    intro n c hm
    refine Classical.byContradiction fun hn => hn (h n c ?_)
    exact Spaces.nf_step (M := P) d op b (fun n e => hop n (by simp [e])) _ hm hn

theorem ident_mem {d d' : Doc} (h : Ext d d') {o : Obj} (ho : o ∈ d.idents) : o ∈ d'.idents := h.subset ho

theorem font_kept (ops : List Op) : ∀ (d : Doc), Base d → ∀ f s, Op.addFont f s true ∈ ops → ∃ c cid uni, Obj.font f s c cid uni ∈ (exec d ops).idents := by
  induction ops with
  | nil => intro d _ f s h; simp at h
  | cons op ops ih =>
    intro d b f s h
    rcases List.mem_cons.1 h with rfl | h
    · obtain ⟨cnt, hid, _⟩ := addFont_cases d b f s
      refine ⟨cnt, d.objs.length + 3, d.objs.length, ident_mem (exec_ext (step d (.addFont f s true)).1 ops) ?_⟩
      simp only [step, if_true]
      rw [hid]
      simp
    · exact ih _ (base_step b op) f s h

theorem space_kept (ops : List Op) : ∀ (d : Doc), Base d → ∀ n, Op.addColorSpace n ∈ ops → ∃ c, Obj.colorSpace n c ∈ (exec d ops).idents := by
  induction ops with
  | nil => intro d _ n h; simp at h
  | cons op ops ih =>
    intro d b n h
    rcases List.mem_cons.1 h with rfl | h
    · rcases addColorSpace_cases d b n with ⟨-, e⟩ | ⟨-, -, e, -⟩
      · exact ⟨0, ident_mem (exec_ext (step d (.addColorSpace n)).1 ops) (by simp only [step, e, idents_add]; simp [Obj.ident])⟩
      · exact ⟨d.csCount, ident_mem (exec_ext (step d (.addColorSpace n)).1 ops) (by simp only [step, e]; simp)⟩
    · exact ih _ (base_step b op) n h

/-! ### Pictures -/

theorem appendPaged_err (d : Doc) (e : Entry) : (d.appendPaged e).2 ≠ .err := by
  unfold Doc.appendPaged
  cases h : d.curPage <;> simp

/-- A cached picture could be decoded. -/
def Cached (d : Doc) (img : Img) : Prop := ∀ i, assoc d.imgs img.id = some i → img.parsed.isSome

theorem imageByHolder_err {d : Doc} (tag : Nat) {img : Img} (h : Cached d img) (gs : List Nat) (split : Bool) :
    (d.imageByHolder tag img gs split).2 = .err ↔ img.parsed = none := by
  unfold Doc.imageByHolder
  cases hi : assoc d.imgs img.id with
  | some i =>
    have := h i hi
    simp only [appendPaged_err, false_iff]
    intro hn; simp [hn] at this
  | none =>
    cases hp : img.parsed with
    | none => simp
    | some ax =>
      obtain ⟨a, x⟩ := ax
      simp only [reduceCtorEq, iff_false]
      have := appendPaged_err (d.add (.image img.id ⟨false, a, x, split⟩ none none)) { tag := tag, xobj := some (d.objs.length + 1), gs := gs }
      revert this
      generalize Doc.appendPaged _ _ = r
      obtain ⟨d', o⟩ := r
      cases o <;> simp

theorem maskHolder_err {d : Doc} (tag : Nat) {img : Img} (h : Cached d img) (gs : List Nat) :
    (d.maskHolder tag img gs).2.2 = .err ↔ img.parsed = none := by
  unfold Doc.maskHolder
  cases hi : assoc d.imgs img.id with
  | some i =>
    have := h i hi
    have hn : img.parsed ≠ none := fun hn => by simp [hn] at this
    simp only [hn, iff_false]
    split <;> simp
  | none =>
    cases hp : img.parsed with
    | none => simp
    | some ax =>
      obtain ⟨a, x⟩ := ax
      simp only [reduceCtorEq, iff_false]
      split <;> simp

theorem maskGroup_imgs (d : Doc) (tag x : Nat) (gs : List Nat) : (d.maskGroup tag x gs).1.imgs = d.imgs :=
  (pairs_gext (GExt.maskGroup imgv_blind d x gs)).2

theorem getContent_imgs (d : Doc) : d.getContent.1.imgs = d.imgs := (pairs_gext (GExt.getContent imgv_blind d)).2

theorem maskHolder_imgs {d : Doc} (tag : Nat) (img : Img) (gs : List Nat) :
    ∀ p ∈ (d.maskHolder tag img gs).1.imgs, p ∈ d.imgs ∨ (p.1 = img.id ∧ img.parsed.isSome) := by
  intro p hp
  unfold Doc.maskHolder at hp
  split at hp
  · split at hp
    · rw [getContent_imgs] at hp; exact .inl hp
    · simp only [maskGroup_imgs, getContent_imgs] at hp; exact .inl hp
  · split at hp
    · exact .inl hp
    · next hx =>
      simp only [] at hp
      split at hp
      · rw [getContent_imgs] at hp; exact .inl hp
      · simp only [maskGroup_imgs] at hp
        simp only [Doc.register, Doc.cacheImage, Bool.false_eq_true, if_false, List.mem_append, List.mem_singleton] at hp
        rcases hp with hp | rfl
        · rw [getContent_imgs] at hp; exact .inl hp
        · exact .inr ⟨rfl, by simp [hx]⟩

theorem imageWithOptions_err {d : Doc} (tag : Nat) {img : Img} (h : Cached d img) (tr : Option Tr) (mask : Option (Img × Option Tr))
    (hb : (d.imageWithOptions tag img tr mask).2 ≠ .panic) (hm : ∀ m t, mask = some (m, t) → Cached d m ∧ (m.id = img.id → m.parsed.isSome = img.parsed.isSome)) :
    (d.imageWithOptions tag img tr mask).2 = .err ↔ img.parsed = none ∨ ∃ m t, mask = some (m, t) ∧ m.parsed = none := by
  unfold Doc.imageWithOptions at hb ⊢
  have e1 : (d.cachedTransparency tr).1.imgs = d.imgs := (pairs_gext (GExt.cachedTransparency imgv_blind d tr)).2
  cases mask with
  | none =>
    simp only [reduceCtorEq, false_and, exists_false, or_false]
    refine imageByHolder_err tag ?_ _ _
    intro i hi; exact h i (by rw [← e1]; exact hi)
  | some m =>
    obtain ⟨m, mtr⟩ := m
    obtain ⟨h1, h2⟩ := hm m mtr rfl
    simp only [] at hb ⊢
    have e2 : ((d.cachedTransparency tr).1.cachedTransparency mtr).1.imgs = d.imgs :=
      (pairs_gext (GExt.cachedTransparency imgv_blind _ mtr)).2.trans e1
    revert hb
    generalize ((d.cachedTransparency tr).1.cachedTransparency mtr).2.toList = gs
    generalize (d.cachedTransparency tr).2.toList = gs0
    revert e2
    generalize ((d.cachedTransparency tr).1.cachedTransparency mtr).1 = d2
    intro e2 hb
    have k1 := maskHolder_err tag (d := d2) (img := m) (by intro i hi; exact h1 i (by rw [← e2]; exact hi)) gs
    have k2 := maskHolder_imgs (d := d2) tag m gs
    have k3 := maskHolder_ok (tag := tag) d2 m gs
    revert k1 k2 k3 hb
    generalize Doc.maskHolder d2 tag m gs = r
    obtain ⟨d3, g, o⟩ := r
    intro hb k1 k2 k3
    have key : ∀ gs b, (d3.imageByHolder tag img gs b).2 = .err ↔ img.parsed = none := by
      refine fun gs b => imageByHolder_err tag ?_ gs b
      intro i hi
      rcases k2 _ (assoc_mem hi) with hp | ⟨hp, hs⟩
      · rw [e2] at hp
        cases ha : assoc d.imgs img.id with
        | none => exact absurd hp (assoc_none ha i)
        | some j => exact h j ha
      · rw [← h2 hp.symm]; exact hs
    have hbody : (∃ m_1 t, some (m, mtr) = some (m_1, t) ∧ m_1.parsed = none) ↔ m.parsed = none :=
      ⟨fun ⟨_, _, e, hp⟩ => by cases e; exact hp, fun hp => ⟨m, mtr, rfl, hp⟩⟩
    rw [hbody]
    cases o with
    | ok =>
      have : m.parsed ≠ none := fun hn => by simpa using k1.2 hn
      cases g with
      | some g => simp only [key, this, or_false]
      | none => simp at k3
    | err => simp only [true_iff] at k1; simp [k1]
    | panic => simp at hb

/-! ### What is left of a call that failed -/

theorem Quiet.refl (b : Doc) : Quiet b b := ⟨fun _ _ h _ => h, rfl, rfl, rfl, rfl, rfl⟩

theorem Quiet.add {b d : Doc} (h : Quiet b d) (o : Obj) : Quiet b (d.add o) :=
  ⟨fun i x hi hn => by
    have := h.objs i x hi hn
    simp only [Doc.add]
    rw [List.getElem?_append_left (List.getElem?_eq_some_iff.1 this).1]; exact this, h.2, h.3, h.4, h.5, h.6⟩

theorem Quiet.upd {b d : Doc} (h : Quiet b d) (f : Obj → Obj) : Quiet b (d.upd procIdx f) :=
  ⟨fun i x hi hn => by
    have := h.objs i x hi hn
    simp only [Doc.upd, List.getElem?_modify]
    rw [this]; simp [Ne.symm hn], h.2, h.3, h.4, h.5, h.6⟩

theorem Quiet.of {b d d' : Doc} (h : Quiet b d) (h1 : d'.objs = d.objs) (h2 : d'.curPage = d.curPage) (h3 : d'.curFont = d.curFont)
    (h4 : d'.curTr = d.curTr) (h5 : d'.lastOutline = d.lastOutline) (h6 : d'.anchors = d.anchors) : Quiet b d' :=
  ⟨by rw [h1]; exact h.objs, h2.trans h.2, h3.trans h.3, h4.trans h.4, h5.trans h.5, h6.trans h.6⟩

theorem Quiet.extGState {b d : Doc} (h : Quiet b d) (k : GKey) : Quiet b (d.extGState k).1 := by
  unfold Doc.extGState
  split
  · exact h
  · exact ((h.add (.extGS k)).upd _).of rfl rfl rfl rfl rfl rfl

theorem Quiet.saveTransparency {b d : Doc} (h : Quiet b d) (t : Tr) : Quiet b (d.saveTransparency t).1 := by
  unfold Doc.saveTransparency
  split
  · exact h
  · split
    · exact h
    · exact (h.extGState _).of rfl rfl rfl rfl rfl rfl

theorem Quiet.cachedTransparency {b d : Doc} (h : Quiet b d) (t : Option Tr) : Quiet b (d.cachedTransparency t).1 := by
  unfold Doc.cachedTransparency
  split
  · exact h
  · exact h.saveTransparency _

theorem Quiet.getContent {b d : Doc} (h : Quiet b d) : Quiet b d.getContent.1 := by
  unfold Doc.getContent
  split
  · exact h
  · exact (h.add (.content [])).of rfl rfl rfl rfl rfl rfl

theorem Quiet.maskGroup {b d : Doc} (h : Quiet b d) (tag x : Nat) (gs : List Nat) : Quiet b (d.maskGroup tag x gs).1 := by
  unfold Doc.maskGroup
  simp only []
  refine Quiet.extGState ?_ _
  unfold Doc.softMask
  split
  · exact h.add _
  · exact ((h.add _).add _).of rfl rfl rfl rfl rfl rfl

theorem Quiet.maskHolder {b d : Doc} (h : Quiet b d) (tag : Nat) (img : Img) (gs : List Nat) : Quiet b (d.maskHolder tag img gs).1 := by
  unfold Doc.maskHolder
  split
  · split
    · exact h.getContent
    · exact h.getContent.maskGroup _ _ _
  · split
    · exact h
    · simp only []
      split
      · exact (h.add _).getContent
      · refine Quiet.maskGroup ?_ _ _ _
        unfold Doc.register
        simp only [Bool.false_eq_true, if_false]
        unfold Doc.cacheImage
        exact (((h.add _).getContent).upd _).of rfl rfl rfl rfl rfl rfl

theorem Quiet.imageByHolder {b d : Doc} (h : Quiet b d) (tag : Nat) (img : Img) (gs : List Nat) (split : Bool)
    (he : (d.imageByHolder tag img gs split).2 = .err) : Quiet b (d.imageByHolder tag img gs split).1 := by
  unfold Doc.imageByHolder at he ⊢
  split at he
  · exact absurd he (appendPaged_err _ _)
  · split at he
    · exact h
    · next a x hx =>
      exfalso
      simp only [] at he
      have := appendPaged_err (d.add (.image img.id ⟨false, a, x, split⟩ none none)) { tag := tag, xobj := some (d.objs.length + 1), gs := gs }
      revert this he
      generalize Doc.appendPaged _ _ = r
      obtain ⟨d', o⟩ := r
      cases o <;> simp

theorem Quiet.imageWithOptions {b d : Doc} (h : Quiet b d) (tag : Nat) (img : Img) (tr : Option Tr) (mask : Option (Img × Option Tr))
    (he : (d.imageWithOptions tag img tr mask).2 = .err) : Quiet b (d.imageWithOptions tag img tr mask).1 := by
  unfold Doc.imageWithOptions at he ⊢
  cases mask with
  | none => exact (h.cachedTransparency tr).imageByHolder _ _ _ _ he
  | some m =>
    obtain ⟨m, mtr⟩ := m
    simp only [] at he ⊢
    have k := ((h.cachedTransparency tr).cachedTransparency mtr).maskHolder tag m ((d.cachedTransparency tr).1.cachedTransparency mtr).2.toList
    revert k he
    generalize Doc.maskHolder _ tag m _ = r
    obtain ⟨d3, g, o⟩ := r
    intro he k
    cases o <;> cases g <;> first | exact k | exact k.imageByHolder _ _ _ _ he

theorem step_quiet (d : Doc) (op : Op) (he : (step d op).2 = .err) : Quiet d (step d op).1 := by
  cases op with
  | addPage => simp [step] at he
  | draw tag np => simp only [step] at he; split at he; exact absurd he (appendPaged_err _ _); simp at he
  | drawTr tag tr => exact absurd he (appendPaged_err _ _)
  | text tag =>
    simp only [step] at he; split at he
    · simp at he
    · exact absurd he (appendPaged_err _ _)
  | cell tag tr =>
    simp only [step] at he; split at he
    · simp at he
    · exact absurd he (appendPaged_err _ _)
  | setTransparency t => simp [step] at he
  | clearTransparency => simp [step] at he
  | addFont f s ok =>
    simp only [step] at he ⊢
    split at he
    · simp at he
    · next hk => rw [if_neg hk]; exact Quiet.refl d
  | setFont f s =>
    simp only [step, Doc.setFont] at he ⊢
    split at he
    · simp at he
    · exact Quiet.refl d
  | image tag img => exact (Quiet.refl d).imageByHolder _ _ _ _ he
  | imageOpt tag img tr mask => exact (Quiet.refl d).imageWithOptions _ _ _ _ he
  | addColorSpace n =>
    simp only [step, Doc.addColorSpace] at he ⊢
    split at he
    · next hk => rw [if_pos hk]; exact (Quiet.refl d).add _
    · simp at he
  | setColorSpace tag n =>
    simp only [step, Doc.setColorSpace] at he ⊢
    split at he
    · simp at he
    · exact Quiet.refl d
  | externalLink => simp only [step, Doc.addLink] at he; split at he <;> simp at he
  | internalLink a => simp only [step, Doc.addLink] at he; split at he <;> simp at he
  | setAnchor n y => simp [step] at he
  | addOutline t => simp [step] at he
  | importObjects n => simp [step] at he
  | setPage k =>
    simp only [step, Doc.setPage] at he ⊢
    split at he
    · simp at he
    · exact Quiet.refl d
  | compile => simp [step] at he

/-- An error of another call than ImageByHolderWithOptions and AddColorSpace leaves everything as it was. -/
theorem step_err_same (d : Doc) (op : Op) (he : (step d op).2 = .err) (h1 : ∀ t i r m, op ≠ .imageOpt t i r m) (h2 : ∀ n, op ≠ .addColorSpace n) :
    (step d op).1 = d := by
  cases op with
  | addPage => simp [step] at he
  | draw tag np => simp only [step] at he; split at he; exact absurd he (appendPaged_err _ _); simp at he
  | drawTr tag tr => exact absurd he (appendPaged_err _ _)
  | text tag =>
    simp only [step] at he; split at he
    · simp at he
    · exact absurd he (appendPaged_err _ _)
  | cell tag tr =>
    simp only [step] at he; split at he
    · simp at he
    · exact absurd he (appendPaged_err _ _)
  | setTransparency t => simp [step] at he
  | clearTransparency => simp [step] at he
  | addFont f s ok =>
    simp only [step] at he ⊢
    split at he
    · simp at he
    · next hk => rw [if_neg hk]
  | setFont f s =>
    simp only [step, Doc.setFont] at he ⊢
    split at he
    · simp at he
    · rfl
  | image tag img =>
    simp only [step, Doc.imageByHolder] at he ⊢
    split at he
    · exact absurd he (appendPaged_err _ _)
    · split at he
      · rfl
      · next a x hx =>
        exfalso
        have := appendPaged_err (d.add (.image img.id ⟨false, a, x, false⟩ none none)) { tag := tag, xobj := some (d.objs.length + 1), gs := [] }
        revert this he
        generalize Doc.appendPaged _ _ = r
        obtain ⟨d', o⟩ := r
        cases o <;> simp
  | imageOpt tag img tr mask => exact absurd rfl (h1 _ _ _ _)
  | addColorSpace n => exact absurd rfl (h2 n)
  | setColorSpace tag n =>
    simp only [step, Doc.setColorSpace] at he ⊢
    split at he
    · simp at he
    · rfl
  | externalLink => simp only [step, Doc.addLink] at he; split at he <;> simp at he
  | internalLink a => simp only [step, Doc.addLink] at he; split at he <;> simp at he
  | setAnchor n y => simp [step] at he
  | addOutline t => simp [step] at he
  | importObjects n => simp [step] at he
  | setPage k =>
    simp only [step, Doc.setPage] at he ⊢
    split at he
    · simp at he
    · rfl
  | compile => simp [step] at he

end Verif.Doc
