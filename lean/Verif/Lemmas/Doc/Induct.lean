import Verif.Lemmas.Doc.Basic
/- Base invariant of a document and an induction principle: every call is a sequence of atomic changes. -/
namespace Verif.Doc

/-- Facts about the bookkeeping fields that hold in every reachable state. -/
structure Base (d : Doc) : Prop where
  b0 : d.idents[0]? = some (.catalog none)
  b1 : d.idents[1]? = some (.pages [] 0)
  b2 : d.idents[outlinesIdx]? = some (.outlines none none 0)
  b3 : d.idents[procIdx]? = some (.procset [] [] [] [])
  content : ∀ i, d.content = some i → d.idents[i]? = some (.content [])
  curPage : ∀ i, d.curPage = some i → d.idents[i]? = some (.page [] [] (procIdx + 1))
  lastOutline : ∀ i, d.lastOutline = some i → ∃ t de p, d.idents[i]? = some (.outline t de p none none)
  curFont : ∀ i c, d.curFont = some (i, c) → ∃ f s cid uni, d.idents[i]? = some (.font f s c cid uni)
  imgs : ∀ id i, (id, i) ∈ d.imgs → ∃ m, d.idents[i]? = some (.image id m none none)
  gss : ∀ k i, (k, i) ∈ d.gss → d.idents[i]? = some (.extGS k)
  trs : ∀ a b n, ((a, b), n) ∈ d.trs → ∃ i, n = i + 1 ∧ (GKey.alpha a b, i) ∈ d.gss
  curTr : ∀ n, d.curTr = some n → ∃ k i, n = i + 1 ∧ (k, i) ∈ d.gss
  masks : ∀ g m, (g, m) ∈ d.masks → d.idents[m]? = some (.softMask g)
  anchors : ∀ a p y, (a, (some p, y)) ∈ d.anchors → d.idents[p]? = some (.page [] [] (procIdx + 1))

theorem prefix_get {α : Type} {l l' : List α} (h : l <+: l') {i : Nat} {x : α} (hx : l[i]? = some x) : l'[i]? = some x := by
  obtain ⟨t, rfl⟩ := h
  have hi : i < l.length := by
    rcases Nat.lt_or_ge i l.length with h | h
    · exact h
    · rw [List.getElem?_eq_none h] at hx; simp at hx
  rw [List.getElem?_append_left hi]; exact hx

theorem Base.start (p : Bool) : Base (start p) := by
  constructor <;> intros <;> simp_all [Doc.start, Doc.idents, Obj.ident, outlinesIdx, procIdx]

/-- `Base` when only objects were added or updated. -/
theorem Base.ext {d d' : Doc} (b : Base d) (h : Ext d d') (h1 : d'.content = d.content) (h2 : d'.curPage = d.curPage)
    (h3 : d'.lastOutline = d.lastOutline) (h4 : d'.curFont = d.curFont) (h5 : d'.imgs = d.imgs) (h6 : d'.gss = d.gss)
    (h7 : d'.trs = d.trs) (h8 : d'.curTr = d.curTr) (h9 : d'.masks = d.masks) (h10 : d'.anchors = d.anchors) :
    Base d' where
  b0 := prefix_get h b.b0
  b1 := prefix_get h b.b1
  b2 := prefix_get h b.b2
  b3 := prefix_get h b.b3
  content := fun i hi => prefix_get h (b.content i (h1 ▸ hi))
  curPage := fun i hi => prefix_get h (b.curPage i (h2 ▸ hi))
  lastOutline := fun i hi => by
    obtain ⟨t, de, p, hp⟩ := b.lastOutline i (h3 ▸ hi)
    exact ⟨t, de, p, prefix_get h hp⟩
  curFont := fun i c hi => by
    obtain ⟨f, s, cid, uni, hp⟩ := b.curFont i c (h4 ▸ hi)
    exact ⟨f, s, cid, uni, prefix_get h hp⟩
  imgs := fun id i hi => by
    obtain ⟨m, hp⟩ := b.imgs id i (h5 ▸ hi)
    exact ⟨m, prefix_get h hp⟩
  gss := fun k i hi => prefix_get h (b.gss k i (h6 ▸ hi))
  trs := fun a c n hi => by rw [h6]; exact b.trs a c n (h7 ▸ hi)
  curTr := fun n hi => by rw [h6]; exact b.curTr n (h8 ▸ hi)
  masks := fun g m hi => prefix_get h (b.masks g m (h9 ▸ hi))
  anchors := fun a p y hi => prefix_get h (b.anchors a p y (h10 ▸ hi))

/-- Where the resources named by a new drawing entry come from. -/
structure EntryOK (d : Doc) (e : Entry) : Prop where
  gs : ∀ n ∈ e.gs, ∃ k i, n = i + 1 ∧ (k, i) ∈ d.gss
  font : ∀ n, e.font = some n → ∃ i c, d.curFont = some (i, c) ∧ n = c + 1
  xobj : ∀ n, e.xobj = some n → ∃ id i, (id, i) ∈ d.imgs ∧ n = i + 1
  cs : ∀ n, e.cs = some n → ∃ i name c, findFrom (isCS name) 0 d.objs = some (i, .colorSpace name c) ∧ n = c + 1

theorem assoc_mem {α β : Type} [DecidableEq α] {l : List (α × β)} {k : α} {v : β} (h : assoc l k = some v) :
    (k, v) ∈ l := by
  unfold assoc at h
  cases hf : l.find? (fun p => p.1 = k) with
  | none => rw [hf] at h; simp at h
  | some p =>
    rw [hf] at h
    simp at h
    have h1 := List.mem_of_find?_eq_some hf
    have h2 : p.1 = k := by simpa using List.find?_some hf
    rw [← h2, ← h]; exact h1

theorem assoc_none {α β : Type} [DecidableEq α] {l : List (α × β)} {k : α} (h : assoc l k = none) :
    ∀ v, (k, v) ∉ l := by
  intro v hv
  unfold assoc at h
  simp only [Option.map_eq_none_iff, List.find?_eq_none] at h
  have := h _ hv
  simp at this

/-- A predicate that every atomic change except compiling preserves. -/
structure Stable0 (P : Doc → Prop) : Prop where
  addPage : ∀ d, Base d → P d → P d.addPage
  mkContent : ∀ d, Base d → P d → d.content = none → P d.getContent.1
  entry : ∀ d i e, Base d → P d → d.content = some i → EntryOK d e → P (d.upd i (Obj.addEntry e))
  newGS : ∀ d k, Base d → P d → assoc d.gss k = none → (∀ m, k = .smask m → ∃ g, (g, m) ∈ d.masks) →
    P (d.extGState k).1
  newTr : ∀ d a b i, Base d → P d → assoc d.trs (a, b) = none → (GKey.alpha a b, i) ∈ d.gss →
    P { d with trs := d.trs ++ [((a, b), i + 1)] }
  setTr : ∀ d g, Base d → P d → (∀ n, g = some n → ∃ k i, n = i + 1 ∧ (k, i) ∈ d.gss) → P { d with curTr := g }
  addImage : ∀ d id m, Base d → P d → assoc d.imgs id = none → P (d.add (.image id m none none))
  register : ∀ d id m i, Base d → P d → assoc d.imgs id = none → d.objs[i]? = some (.image id m none none) →
    P (d.register id i (!m.isMask && m.alpha) (!m.isMask && m.indexed))
  group : ∀ d e, Base d → P d → EntryOK d e → P (d.add (.group [e]))
  softMask : ∀ d g, Base d → P d → assoc d.masks g = none → (∃ es, d.idents[g]? = some (.group es)) →
    P (d.softMask g).1
  addFont : ∀ d f s, Base d → P d → P (d.addFont f s)
  setFont : ∀ d f s, Base d → P d → P (d.setFont f s).1
  addColorSpace : ∀ d n, Base d → P d → P (d.addColorSpace n).1
  addLink : ∀ d a, Base d → P d → P (d.addLink a).1
  setAnchor : ∀ d n y, Base d → P d → P { d with anchors := (n, (d.curPage, y)) :: d.anchors }
  addOutline : ∀ d t, Base d → P d → P (d.addOutline t)
  imported : ∀ d, Base d → P d → P (d.add .imported)
  setPage : ∀ d k, Base d → P d → P (d.setPage k).1

/-- A predicate that every atomic change preserves. -/
structure Stable (P : Doc → Prop) : Prop extends Stable0 P where
  prepare : ∀ d, Base d → P d → P d.prepare

/-- A found object. -/
theorem findFrom_some {p : Obj → Bool} {l : List Obj} {n i : Nat} {o : Obj} (h : findFrom p n l = some (i, o)) :
    ∃ j, i = n + j ∧ l[j]? = some o ∧ p o = true ∧ ∀ k q, k < j → l[k]? = some q → p q = false := by
  induction l generalizing n with
  | nil => simp [findFrom] at h
  | cons a l ih =>
    unfold findFrom at h
    split at h
    · next hp =>
      simp at h
      obtain ⟨rfl, rfl⟩ := h
      exact ⟨0, rfl, rfl, hp, fun k q hk => by omega⟩
    · next hp =>
      obtain ⟨j, h1, h2, h3, h4⟩ := ih h
      refine ⟨j + 1, by omega, h2, h3, ?_⟩
      intro k q hk hq
      cases k with
      | zero => simp at hq; subst hq; simpa using hp
      | succ k => exact h4 k q (by omega) hq

theorem ident_at {d : Doc} {i : Nat} {o : Obj} (h : d.objs[i]? = some o) : d.idents[i]? = some o.ident := by
  simp [Doc.idents, h]

theorem findContent_some {k n i : Nat} {c : Nat} {l : List Obj} (h : findContent k n c l = some i) :
    ∃ j es, i = n + j ∧ l[j]? = some (.content es) := by
  induction l generalizing n c with
  | nil => simp [findContent] at h
  | cons a l ih =>
    unfold findContent at h
    split at h
    · simp at h
    · next os heq =>
      cases heq
      split at h
      · simp at h; exact ⟨0, _, by omega, rfl⟩
      · obtain ⟨j, es, h1, h2⟩ := ih h
        exact ⟨j + 1, es, by omega, h2⟩
    · next heq =>
      cases heq
      obtain ⟨j, es, h1, h2⟩ := ih h
      exact ⟨j + 1, es, by omega, h2⟩

theorem register_fields (d : Doc) (id i : Nat) (a x : Bool) : d.register id i a x = { d with
    objs := (d.register id i a x).objs, imgs := d.imgs ++ [(id, i)] } := by
  unfold Doc.register; cases a <;> cases x <;> rfl

theorem Base.stable : Stable Base where
  addPage := fun d b _ => by
    have hx : Ext d d.addPage := step_ext d .addPage
    refine { b.ext (d' := { d.addPage with content := d.content, curPage := d.curPage }) hx rfl rfl rfl rfl rfl rfl rfl rfl rfl rfl with
      content := ?_, curPage := ?_ }
    · intro i hi; simp [Doc.addPage] at hi
    · intro i hi
      simp [Doc.addPage] at hi
      subst hi
      simp [Doc.addPage, Doc.idents, Doc.add, Obj.ident, procIdx]
  mkContent := fun d b _ hc => by
    have hx := Ext.getContent d
    have e : d.getContent.1 = { d.add (.content []) with content := some d.objs.length } := by
      simp [Doc.getContent, hc]
    rw [e] at hx ⊢
    refine { b.ext (d' := d.add (.content [])) hx rfl rfl rfl rfl rfl rfl rfl rfl rfl rfl with content := ?_ }
    intro i hi
    simp at hi; subst hi
    simp [Doc.idents, Doc.add, Obj.ident]
  entry := fun d i e b _ _ _ => b.ext (Ext.upd d i _ (Obj.ident_addEntry e)) rfl rfl rfl rfl rfl rfl rfl rfl rfl rfl
  newGS := fun d k b _ hn _ => by
    have hx := Ext.extGState d k
    have e : (d.extGState k).1 = { (d.add (.extGS k)).upd procIdx (Obj.addGS d.objs.length) with
        gss := d.gss ++ [(k, d.objs.length)] } := by
      simp [Doc.extGState, hn, Doc.add, Doc.upd]
    rw [e] at hx ⊢
    refine { b.ext (d' := (d.add (.extGS k)).upd procIdx (Obj.addGS d.objs.length)) hx rfl rfl rfl rfl rfl rfl rfl rfl rfl rfl with
      gss := ?_, trs := ?_, curTr := ?_ }
    · intro k' i hi
      rcases List.mem_append.1 hi with h | h
      · exact prefix_get hx (b.gss k' i h)
      · simp at h
        obtain ⟨rfl, rfl⟩ := h
        show (Doc.idents ((d.add (.extGS k')).upd procIdx (Obj.addGS d.objs.length)))[_]? = _
        rw [idents_upd _ _ _ (Obj.ident_addGS _), idents_add]
        simp [Obj.ident, ← idents_len d]
    · intro a c n hi
      obtain ⟨i, h1, h2⟩ := b.trs a c n hi
      exact ⟨i, h1, List.mem_append.2 (Or.inl h2)⟩
    · intro n hi
      obtain ⟨k', i, h1, h2⟩ := b.curTr n hi
      exact ⟨k', i, h1, List.mem_append.2 (Or.inl h2)⟩
  newTr := fun d a c i b _ _ hm => by
    refine { b with trs := ?_ }
    intro a' c' n hi
    rcases List.mem_append.1 hi with h | h
    · exact b.trs a' c' n h
    · simp at h
      obtain ⟨⟨rfl, rfl⟩, rfl⟩ := h
      exact ⟨i, rfl, hm⟩
  setTr := fun d g b _ hg => { b with curTr := fun n hn => hg n hn }
  addImage := fun d id m b _ _ => b.ext (Ext.add d _) rfl rfl rfl rfl rfl rfl rfl rfl rfl rfl
  register := fun d id m i b _ _ hi => by
    have hx := Ext.register d id i (!m.isMask && m.alpha) (!m.isMask && m.indexed)
    have hf := register_fields d id i (!m.isMask && m.alpha) (!m.isMask && m.indexed)
    generalize d.register id i (!m.isMask && m.alpha) (!m.isMask && m.indexed) = r at hx hf
    refine { b.ext (d' := { r with imgs := d.imgs }) hx ?_ ?_ ?_ ?_ rfl ?_ ?_ ?_ ?_ ?_ with imgs := ?_ } <;> try (rw [hf])
    intro id' j hj
    rw [hf] at hj
    rcases List.mem_append.1 hj with h | h
    · obtain ⟨m', hm'⟩ := b.imgs id' j h
      exact ⟨m', prefix_get hx hm'⟩
    · simp at h
      obtain ⟨rfl, rfl⟩ := h
      exact ⟨m, prefix_get hx (ident_at hi)⟩
  group := fun d e b _ _ => b.ext (Ext.add d _) rfl rfl rfl rfl rfl rfl rfl rfl rfl rfl
  softMask := fun d g b _ hn _ => by
    have hx := Ext.softMask d g
    have e : (d.softMask g).1 = { d.add (.softMask g) with masks := d.masks ++ [(g, d.objs.length)] } := by
      simp [Doc.softMask, hn, Doc.add]
    rw [e] at hx ⊢
    refine { b.ext (d' := d.add (.softMask g)) hx rfl rfl rfl rfl rfl rfl rfl rfl rfl rfl with masks := ?_ }
    intro g' m hm
    rcases List.mem_append.1 hm with h | h
    · exact prefix_get hx (b.masks g' m h)
    · simp at h
      obtain ⟨rfl, rfl⟩ := h
      show (d.add (.softMask g')).idents[_]? = _
      rw [idents_add]
      simp [Obj.ident, ← idents_len d]
  addFont := fun d f s b _ => by
    refine b.ext (Ext.addFont d f s) ?_ ?_ ?_ ?_ ?_ ?_ ?_ ?_ ?_ ?_ <;> (unfold Doc.addFont; simp only []; split <;> rfl)
  setFont := fun d f s b _ => by
    unfold Doc.setFont
    split
    · next i _ _ c _ _ heq =>
      obtain ⟨j, h1, h2, _, _⟩ := findFrom_some heq
      refine { b with curFont := ?_ }
      intro i' c' hi
      simp at hi
      obtain ⟨rfl, rfl⟩ := hi
      rw [Nat.zero_add] at h1
      subst h1
      exact ⟨_, _, _, _, ident_at h2⟩
    · exact b
  addColorSpace := fun d n b _ => by
    refine b.ext (Ext.addColorSpace d n) ?_ ?_ ?_ ?_ ?_ ?_ ?_ ?_ ?_ ?_ <;> (unfold Doc.addColorSpace; simp only []; split <;> rfl)
  addLink := fun d a b _ => by
    refine b.ext (Ext.addLink d a) ?_ ?_ ?_ ?_ ?_ ?_ ?_ ?_ ?_ ?_ <;> (unfold Doc.addLink; split <;> rfl)
  setAnchor := fun d n y b _ => by
    refine { b with anchors := ?_ }
    intro a p y' h
    rcases List.mem_cons.1 h with h | h
    · simp at h
      exact b.curPage p h.2.1.symm
    · exact b.anchors a p y' h
  addOutline := fun d t b _ => by
    have hx := Ext.addOutline d t
    refine { b.ext (d' := { d.addOutline t with lastOutline := d.lastOutline }) hx ?_ ?_ rfl ?_ ?_ ?_ ?_ ?_ ?_ ?_ with
      lastOutline := ?_ } <;> try (unfold Doc.addOutline; simp only []; split <;> rfl)
    intro i hi
    have e : (d.addOutline t).idents = d.idents ++ [.outline t d.curPageId 2 none none] := by
      unfold Doc.addOutline
      simp only []
      have h1 : ∀ x : Doc, (x.upd outlinesIdx (Obj.addOutlineId (d.objs.length + 1))).idents = x.idents :=
        fun x => idents_upd _ _ _ (Obj.ident_addOutlineId _)
      split
      · show (Doc.upd _ _ _).idents = _
        rw [h1, idents_add]; rfl
      · show (Doc.upd _ _ _).idents = _
        rw [idents_upd _ _ _ (Obj.ident_setNext _), h1, idents_add]; rfl
    simp [Doc.addOutline] at hi
    subst hi
    refine ⟨t, d.curPageId, 2, ?_⟩
    rw [e]; simp [← idents_len d]
  imported := fun d b _ => b.ext (Ext.add d _) rfl rfl rfl rfl rfl rfl rfl rfl rfl rfl
  setPage := fun d k b _ => by
    unfold Doc.setPage
    split
    · next i heq =>
      obtain ⟨j, es, h1, h2⟩ := findContent_some heq
      refine { b with content := ?_ }
      intro i' hi
      simp at hi; subst hi
      have : d.objs[i]? = some (.content es) := by rw [h1, Nat.zero_add]; exact h2
      exact ident_at this
    · exact b
  prepare := fun d b _ => by
    have hx : Ext d d.prepare := Ext.of_append (prepare_idents d)
    have hm : ∀ x : Doc, x.markOutlines = { x with objs := x.markOutlines.objs } := by
      intro x; unfold Doc.markOutlines; split <;> (try split) <;> rfl
    have e : d.prepare = { d with objs := d.prepare.objs, encId := d.prepare.encId } := by
      rw [prepare_eq]
      unfold Doc.prep0
      rw [hm]
      split <;> rfl
    rw [e] at hx ⊢
    exact b.ext hx rfl rfl rfl rfl rfl rfl rfl rfl rfl rfl

section
variable {P : Doc → Prop} (S : Stable0 P)

/-- Both invariants together. -/
def Both (P : Doc → Prop) (d : Doc) : Prop := Base d ∧ P d

theorem both_getContent {d : Doc} (h : Both P d) (S : Stable0 P) : Both P d.getContent.1 := by
  cases hc : d.content with
  | some i => simp only [Doc.getContent, hc]; exact h
  | none => exact ⟨Base.stable.mkContent d h.1 h.1 hc, S.mkContent d h.1 h.2 hc⟩

theorem getContent_some (d : Doc) : d.getContent.1.content = some d.getContent.2 := by
  unfold Doc.getContent
  split <;> simp_all

theorem getContent_fields (d : Doc) : d.getContent.1 = { d with
    objs := d.getContent.1.objs, content := d.getContent.1.content } := by
  unfold Doc.getContent
  split <;> rfl

theorem getContent_objs (d : Doc) : d.getContent.1.objs = d.objs ++ (if d.content.isNone then [.content []] else []) := by
  unfold Doc.getContent
  split <;> simp_all [Doc.add]

theorem findFrom_append {p : Obj → Bool} {l m : List Obj} {n i : Nat} {o : Obj} (h : findFrom p n l = some (i, o)) :
    findFrom p n (l ++ m) = some (i, o) := by
  induction l generalizing n with
  | nil => simp [findFrom] at h
  | cons a l ih =>
    simp only [List.cons_append, findFrom] at h ⊢
    split at h
    · next hp => rw [if_pos hp]; exact h
    · next hp => rw [if_neg hp]; exact ih h

theorem EntryOK.getContent {d : Doc} {e : Entry} (h : EntryOK d e) : EntryOK d.getContent.1 e := by
  rw [getContent_fields, getContent_objs]
  exact ⟨h.gs, h.font, h.xobj, fun n hn => by
    obtain ⟨i, nm, c, h1, h2⟩ := h.cs n hn
    exact ⟨i, nm, c, findFrom_append h1, h2⟩⟩

theorem both_append {d : Doc} (S : Stable0 P) (h : Both P d) {e : Entry} (he : EntryOK d e) : Both P (d.append e) := by
  have h1 := both_getContent h S
  exact ⟨Base.stable.entry _ _ e h1.1 h1.1 (getContent_some d) he.getContent,
    S.entry _ _ e h1.1 h1.2 (getContent_some d) he.getContent⟩

theorem both_appendPaged {d : Doc} (S : Stable0 P) (h : Both P d) {e : Entry} (he : EntryOK d e) :
    Both P (d.appendPaged e).1 := by
  unfold Doc.appendPaged
  split
  · exact both_getContent h S
  · exact both_append S h he

theorem extGState_hit {d : Doc} {k : GKey} {i : Nat} (h : assoc d.gss k = some i) : d.extGState k = (d, i) := by
  simp [Doc.extGState, h]

theorem extGState_miss {d : Doc} {k : GKey} (h : assoc d.gss k = none) : d.extGState k =
    ({ (d.add (.extGS k)).upd procIdx (Obj.addGS d.objs.length) with gss := d.gss ++ [(k, d.objs.length)] },
      d.objs.length) := by
  simp [Doc.extGState, h, Doc.add, Doc.upd]

/-- After `extGState` the state is in the table, and the table only grew; other fields are unchanged. -/
theorem extGState_spec (d : Doc) (k : GKey) :
    (k, (d.extGState k).2) ∈ (d.extGState k).1.gss ∧ (∃ l, (d.extGState k).1.gss = d.gss ++ l) ∧
    (d.extGState k).1 = { d with objs := (d.extGState k).1.objs, gss := (d.extGState k).1.gss } := by
  cases h : assoc d.gss k with
  | some i => rw [extGState_hit h]; exact ⟨assoc_mem h, ⟨[], by simp⟩, rfl⟩
  | none =>
    rw [extGState_miss h]
    exact ⟨List.mem_append.2 (Or.inr (by simp)), ⟨_, rfl⟩, rfl⟩

theorem both_extGState {d : Doc} (S : Stable0 P) (h : Both P d) (k : GKey)
    (hk : ∀ m, k = .smask m → ∃ g, (g, m) ∈ d.masks) : Both P (d.extGState k).1 := by
  cases hc : assoc d.gss k with
  | some i => rw [extGState_hit hc]; exact h
  | none => exact ⟨Base.stable.newGS d k h.1 h.1 hc hk, S.newGS d k h.1 h.2 hc hk⟩

theorem both_saveTransparency {d : Doc} (S : Stable0 P) (h : Both P d) (t : Tr) :
    Both P (d.saveTransparency t).1 ∧
    (∀ n, (d.saveTransparency t).2 = some n → ∃ k i, n = i + 1 ∧ (k, i) ∈ (d.saveTransparency t).1.gss) ∧
    (∃ l, (d.saveTransparency t).1.gss = d.gss ++ l) ∧
    (d.saveTransparency t).1 = { d with objs := (d.saveTransparency t).1.objs, gss := (d.saveTransparency t).1.gss, trs := (d.saveTransparency t).1.trs } := by
  unfold Doc.saveTransparency
  cases hc : assoc d.trs (t.alpha3, t.blend) with
  | some n =>
    refine ⟨h, ?_, ⟨[], by simp⟩, rfl⟩
    intro n' hn
    simp at hn; subst hn
    obtain ⟨i, h1, h2⟩ := h.1.trs _ _ _ (assoc_mem hc)
    exact ⟨_, i, h1, h2⟩
  | none =>
    simp only []
    split
    · exact ⟨h, by simp, ⟨[], by simp⟩, rfl⟩
    · have h1 := both_extGState S h (.alpha t.alpha3 t.blend) (by simp)
      obtain ⟨s1, s2, s3⟩ := extGState_spec d (.alpha t.alpha3 t.blend)
      have hc' : assoc (d.extGState (.alpha t.alpha3 t.blend)).1.trs (t.alpha3, t.blend) = none := by
        rw [s3]; exact hc
      refine ⟨⟨Base.stable.newTr _ _ _ _ h1.1 h1.1 hc' s1, S.newTr _ _ _ _ h1.1 h1.2 hc' s1⟩, ?_, s2, ?_⟩
      · intro n hn
        simp at hn; subst hn
        exact ⟨_, _, rfl, s1⟩
      · rw [s3]

theorem both_cachedTransparency {d : Doc} (S : Stable0 P) (h : Both P d) (t : Option Tr) :
    Both P (d.cachedTransparency t).1 ∧
    (∀ n ∈ (d.cachedTransparency t).2.toList, ∃ k i, n = i + 1 ∧ (k, i) ∈ (d.cachedTransparency t).1.gss) ∧
    (∃ l, (d.cachedTransparency t).1.gss = d.gss ++ l) ∧
    (d.cachedTransparency t).1 = { d with objs := (d.cachedTransparency t).1.objs, gss := (d.cachedTransparency t).1.gss, trs := (d.cachedTransparency t).1.trs } := by
  cases t with
  | none =>
    refine ⟨h, ?_, ⟨[], by simp [Doc.cachedTransparency]⟩, rfl⟩
    intro n hn
    exact h.1.curTr n (by simpa [Doc.cachedTransparency] using hn)
  | some t =>
    obtain ⟨h1, h2, h3, h4⟩ := both_saveTransparency S h t
    refine ⟨h1, ?_, h3, h4⟩
    intro n hn
    exact h2 n (by simpa [Doc.cachedTransparency] using hn)

theorem modify_comm {α : Type} (l : List α) {i j : Nat} (h : i ≠ j) (f g : α → α) :
    (l.modify i f).modify j g = (l.modify j g).modify i f := by
  apply List.ext_getElem?
  intro k
  simp only [List.getElem?_modify]
  cases l[k]? with
  | none => simp
  | some o =>
    simp
    by_cases h1 : i = k
    · by_cases h2 : j = k
      · omega
      · simp [h1, h2]
    · simp [h1]

theorem modify_append_left {α : Type} (l m : List α) {i : Nat} (h : i < l.length) (f : α → α) :
    (l ++ m).modify i f = l.modify i f ++ m := by
  apply List.ext_getElem?
  intro k
  rw [List.getElem?_modify]
  rcases Nat.lt_or_ge k l.length with hk | hk
  · rw [List.getElem?_append_left hk, List.getElem?_append_left (by simpa using hk), List.getElem?_modify]
  · rw [List.getElem?_append_right hk, List.getElem?_append_right (by simpa using hk)]
    have : i ≠ k := by omega
    simp [this]

theorem upd_comm (d : Doc) {i j : Nat} (h : i ≠ j) (f g : Obj → Obj) :
    (d.upd i f).upd j g = (d.upd j g).upd i f := by
  unfold Doc.upd; simp only []; rw [modify_comm _ h]

theorem upd_add (d : Doc) {i : Nat} (h : i < d.objs.length) (f : Obj → Obj) (o : Obj) :
    (d.upd i f).add o = (d.add o).upd i f := by
  unfold Doc.upd Doc.add; simp only []; rw [modify_append_left _ _ h]

theorem upd_addSMaskImage (d : Doc) {c i : Nat} (hc : c < d.objs.length) (hne : c ≠ i) (f : Obj → Obj) :
    (d.upd c f).addSMaskImage i = (d.addSMaskImage i).upd c f := by
  unfold Doc.addSMaskImage
  rw [upd_add d hc, upd_comm _ hne]
  simp [Doc.upd]

theorem upd_addPalette (d : Doc) {c i : Nat} (hc : c < d.objs.length) (hne : c ≠ i) (f : Obj → Obj) :
    (d.upd c f).addPalette i = (d.addPalette i).upd c f := by
  unfold Doc.addPalette
  rw [upd_add d hc, upd_comm _ hne]
  simp [Doc.upd]

theorem upd_cacheImage (d : Doc) {c : Nat} (hne : c ≠ procIdx) (f : Obj → Obj) (id i : Nat) :
    (d.upd c f).cacheImage id i = (d.cacheImage id i).upd c f := by
  unfold Doc.cacheImage Doc.upd
  simp only []
  rw [modify_comm _ hne]

theorem upd_register (d : Doc) {c i : Nat} (hc : c < d.objs.length) (hp : c ≠ procIdx) (hne : c ≠ i) (f : Obj → Obj)
    (id : Nat) (a x : Bool) : (d.upd c f).register id i a x = (d.register id i a x).upd c f := by
  have l1 : ∀ e : Doc, (e.cacheImage id i).objs.length = e.objs.length := by
    intro e; simp [Doc.cacheImage, Doc.upd]
  have l2 : ∀ e : Doc, e.objs.length ≤ (e.addSMaskImage i).objs.length := by
    intro e; simp [Doc.addSMaskImage, Doc.upd, Doc.add]
  unfold Doc.register
  simp only []
  rw [upd_cacheImage d hp]
  cases a <;> cases x
  · rfl
  · show ((d.cacheImage id i).upd c f).addPalette i = _
    rw [upd_addPalette _ (by rw [l1]; exact hc) hne]; rfl
  · show ((d.cacheImage id i).upd c f).addSMaskImage i = _
    rw [upd_addSMaskImage _ (by rw [l1]; exact hc) hne]; rfl
  · show (((d.cacheImage id i).upd c f).addSMaskImage i).addPalette i = _
    rw [upd_addSMaskImage _ (by rw [l1]; exact hc) hne, upd_addPalette _ (by
      refine Nat.lt_of_lt_of_le ?_ (l2 _); rw [l1]; exact hc) hne]; rfl

theorem lt_of_get {α : Type} {l : List α} {i : Nat} {x : α} (h : l[i]? = some x) : i < l.length := by
  rcases Nat.lt_or_ge i l.length with h' | h'
  · exact h'
  · rw [List.getElem?_eq_none h'] at h; simp at h

/-- Adding the entry and registering the image commute. -/
theorem append_register {d : Doc} (b : Base d) (e : Entry) {id i : Nat} {m : ImgInfo} (a x : Bool)
    (hi : d.idents[i]? = some (.image id m none none)) :
    (d.append e).register id i a x = (d.getContent.1.register id i a x).upd d.getContent.2 (Obj.addEntry e) := by
  have hb : Base d.getContent.1 := by
    cases hc : d.content with
    | some i => simp only [Doc.getContent, hc]; exact b
    | none => exact Base.stable.mkContent d b b hc
  have hcc := hb.content _ (getContent_some d)
  have hne : d.getContent.2 ≠ procIdx := by
    intro hc
    rw [hc, hb.b3] at hcc
    simp at hcc
  have hne' : d.getContent.2 ≠ i := by
    intro hc
    rw [hc, prefix_get (Ext.getContent d) hi] at hcc
    simp at hcc
  have hlt : d.getContent.2 < d.getContent.1.objs.length := by
    rw [← idents_len]; exact lt_of_get hcc
  exact upd_register _ hlt hne hne' _ _ _ _

theorem both_register {d : Doc} (S : Stable0 P) (h : Both P d) {id i : Nat} {m : ImgInfo} (hn : assoc d.imgs id = none)
    (hi : d.objs[i]? = some (.image id m none none)) :
    Both P (d.register id i (!m.isMask && m.alpha) (!m.isMask && m.indexed)) :=
  ⟨Base.stable.register d id m i h.1 h.1 hn hi, S.register d id m i h.1 h.2 hn hi⟩

theorem both_imageByHolder {d : Doc} (S : Stable0 P) (h : Both P d) (tag : Nat) (img : Img) (gs : List Nat) (split : Bool)
    (hgs : ∀ n ∈ gs, ∃ k i, n = i + 1 ∧ (k, i) ∈ d.gss) : Both P (d.imageByHolder tag img gs split).1 := by
  unfold Doc.imageByHolder
  cases hc : assoc d.imgs img.id with
  | some i =>
    exact both_appendPaged S h ⟨hgs, by simp, by
      intro n hn; simp at hn; subst hn; exact ⟨_, _, assoc_mem hc, rfl⟩, by simp⟩
  | none =>
    simp only []
    split
    · exact h
    · next hasAlpha indexed hp =>
      have h1 : Both P (d.add (.image img.id ⟨false, hasAlpha, indexed, split⟩ none none)) :=
        ⟨Base.stable.addImage d _ _ h.1 h.1 hc, S.addImage d _ _ h.1 h.2 hc⟩
      have hi1 : (d.add (.image img.id ⟨false, hasAlpha, indexed, split⟩ none none)).objs[d.objs.length]? =
          some (.image img.id ⟨false, hasAlpha, indexed, split⟩ none none) := by
        simp [Doc.add]
      generalize hd1 : d.add (.image img.id ⟨false, hasAlpha, indexed, split⟩ none none) = d1 at h1 hi1
      have hc1 : assoc d1.imgs img.id = none := by rw [← hd1]; exact hc
      have hg1 : d1.gss = d.gss := by rw [← hd1]; rfl
      unfold Doc.appendPaged
      by_cases hp : d1.curPage.isNone = true
      · rw [if_pos hp]; simp only []
        exact both_getContent h1 S
      · rw [if_neg hp]; simp only []
        rw [append_register h1.1 _ _ _ (ident_at hi1)]
        have h2 := both_getContent h1 S
        have hc2 : assoc d1.getContent.1.imgs img.id = none := by rw [getContent_fields]; exact hc1
        have hi2 : d1.getContent.1.objs[d.objs.length]? = some (.image img.id ⟨false, hasAlpha, indexed, split⟩ none none) := by
          rw [getContent_objs, List.getElem?_append_left (lt_of_get hi1)]; exact hi1
        have h3 := both_register S h2 hc2 hi2
        simp only [Bool.not_false, Bool.true_and] at h3
        have hf := register_fields d1.getContent.1 img.id d.objs.length hasAlpha indexed
        have hcc := getContent_some d1
        have hgc : d1.getContent.1.gss = d.gss := by rw [getContent_fields, hg1]
        generalize d1.getContent.1 = g1 at *
        generalize g1.register img.id d.objs.length hasAlpha indexed = r at *
        have hmem : (img.id, d.objs.length) ∈ r.imgs := by
          rw [hf]; exact List.mem_append.2 (Or.inr (by simp))
        have hok : EntryOK r { tag := tag, xobj := some (d.objs.length + 1), gs := gs } := by
          refine ⟨?_, by simp, ?_, by simp⟩
          · intro n hn
            obtain ⟨k, i, e1, e2⟩ := hgs n hn
            refine ⟨k, i, e1, ?_⟩
            rw [hf]
            show (k, i) ∈ g1.gss
            rw [hgc]; exact e2
          · intro n hn
            simp at hn; subst hn
            exact ⟨_, _, hmem, rfl⟩
        have hcs : r.content = some d1.getContent.2 := by rw [hf]; exact hcc
        exact ⟨Base.stable.entry _ _ _ h3.1 h3.1 hcs hok, S.entry _ _ _ h3.1 h3.2 hcs hok⟩

theorem softMask_spec (d : Doc) (g : Nat) : (g, (d.softMask g).2) ∈ (d.softMask g).1.masks ∧
    (d.softMask g).1.gss = d.gss ∧ (d.softMask g).1.imgs = d.imgs := by
  unfold Doc.softMask
  cases h : assoc d.masks g with
  | some i => exact ⟨assoc_mem h, rfl, rfl⟩
  | none => exact ⟨List.mem_append.2 (Or.inr (by simp)), rfl, rfl⟩

theorem both_maskGroup {tag : Nat} {d : Doc} (S : Stable0 P) (h : Both P d) (id x : Nat) (gs : List Nat)
    (hx : (id, x) ∈ d.imgs) (hgs : ∀ n ∈ gs, ∃ k i, n = i + 1 ∧ (k, i) ∈ d.gss) :
    Both P (d.maskGroup tag x gs).1 ∧ (∃ k i, (d.maskGroup tag x gs).2 = i + 1 ∧ (k, i) ∈ (d.maskGroup tag x gs).1.gss) ∧
    (∃ l, (d.maskGroup tag x gs).1.gss = d.gss ++ l) := by
  unfold Doc.maskGroup
  simp only []
  have hok : EntryOK d { tag := 0, xobj := some (x + 1), gs := gs, mask := tag } :=
    ⟨hgs, by simp, by intro n hn; simp at hn; subst hn; exact ⟨_, _, hx, rfl⟩, by simp⟩
  have h1 : Both P (d.add (.group [{ tag := 0, xobj := some (x + 1), gs := gs, mask := tag }])) :=
    ⟨Base.stable.group d _ h.1 h.1 hok, S.group d _ h.1 h.2 hok⟩
  have hid : (d.add (.group [{ tag := 0, xobj := some (x + 1), gs := gs, mask := tag }])).idents[d.objs.length]? =
      some (.group [{ tag := 0, xobj := some (x + 1), gs := gs, mask := tag }]) := by
    rw [idents_add]; simp [Obj.ident, ← idents_len d]
  have hgs1 : (d.add (.group [{ tag := 0, xobj := some (x + 1), gs := gs, mask := tag }])).gss = d.gss := rfl
  generalize d.add (.group [{ tag := 0, xobj := some (x + 1), gs := gs, mask := tag }]) = d1 at h1 hid hgs1
  have h2 : Both P (d1.softMask d.objs.length).1 := by
    cases hm : assoc d1.masks d.objs.length with
    | some m => simp only [Doc.softMask, hm]; exact h1
    | none => exact ⟨Base.stable.softMask _ _ h1.1 h1.1 hm ⟨_, hid⟩, S.softMask _ _ h1.1 h1.2 hm ⟨_, hid⟩⟩
  obtain ⟨m1, m2, m3⟩ := softMask_spec d1 d.objs.length
  generalize hd2 : d1.softMask d.objs.length = r2 at h2 m1 m2 m3
  obtain ⟨d2, m⟩ := r2
  simp only [] at h2 m1 m2 m3 ⊢
  have h3 := both_extGState S h2 (.smask m) (by intro m' hm'; cases hm'; exact ⟨_, m1⟩)
  obtain ⟨e1, ⟨l, e2⟩, _⟩ := extGState_spec d2 (.smask m)
  exact ⟨h3, ⟨_, _, rfl, e1⟩, ⟨l, by rw [e2, m2, hgs1]⟩⟩

theorem both_maskHolder {tag : Nat} {d : Doc} (S : Stable0 P) (h : Both P d) (img : Img) (gs : List Nat)
    (hgs : ∀ n ∈ gs, ∃ k i, n = i + 1 ∧ (k, i) ∈ d.gss) :
    Both P (d.maskHolder tag img gs).1 ∧
    (∀ n, (d.maskHolder tag img gs).2.1 = some n → ∃ k i, n = i + 1 ∧ (k, i) ∈ (d.maskHolder tag img gs).1.gss) ∧
    (∃ l, (d.maskHolder tag img gs).1.gss = d.gss ++ l) := by
  unfold Doc.maskHolder
  have hg : d.getContent.1.gss = d.gss := by rw [getContent_fields]
  cases hc : assoc d.imgs img.id with
  | some i =>
    simp only []
    split
    · exact ⟨both_getContent h S, by simp, ⟨[], by simp [hg]⟩⟩
    · have h1 := both_getContent h S
      have hx : (img.id, i) ∈ d.getContent.1.imgs := by rw [getContent_fields]; exact assoc_mem hc
      obtain ⟨r1, r2, l, r3⟩ := both_maskGroup S h1 img.id i gs hx (by rw [hg]; exact hgs)
      refine ⟨r1, ?_, ⟨l, by rw [r3, hg]⟩⟩
      intro n hn
      simp at hn; subst hn
      exact r2
  | none =>
    simp only []
    split
    · exact ⟨h, by simp, ⟨[], by simp⟩⟩
    · next hasAlpha indexed _ =>
      have h1 : Both P (d.add (.image img.id ⟨true, hasAlpha, indexed, false⟩ none none)) :=
        ⟨Base.stable.addImage d _ _ h.1 h.1 hc, S.addImage d _ _ h.1 h.2 hc⟩
      have hi1 : (d.add (.image img.id ⟨true, hasAlpha, indexed, false⟩ none none)).objs[d.objs.length]? =
          some (.image img.id ⟨true, hasAlpha, indexed, false⟩ none none) := by
        simp [Doc.add]
      have hg1 : (d.add (.image img.id ⟨true, hasAlpha, indexed, false⟩ none none)).gss = d.gss := rfl
      have hc1 : assoc (d.add (.image img.id ⟨true, hasAlpha, indexed, false⟩ none none)).imgs img.id = none := hc
      generalize d.add (.image img.id ⟨true, hasAlpha, indexed, false⟩ none none) = d1 at h1 hi1 hg1 hc1
      have hgc : d1.getContent.1.gss = d.gss := by rw [getContent_fields, hg1]
      split
      · exact ⟨both_getContent h1 S, by simp, ⟨[], by simp [hgc]⟩⟩
      · have h2 := both_getContent h1 S
        have hc2 : assoc d1.getContent.1.imgs img.id = none := by rw [getContent_fields]; exact hc1
        have hi2 : d1.getContent.1.objs[d.objs.length]? = some (.image img.id ⟨true, hasAlpha, indexed, false⟩ none none) := by
          rw [getContent_objs, List.getElem?_append_left (lt_of_get hi1)]; exact hi1
        have h3 := both_register S h2 hc2 hi2
        simp only [Bool.not_true, Bool.false_and] at h3
        have hx : (img.id, d.objs.length) ∈ (d1.getContent.1.register img.id d.objs.length false false).imgs :=
          List.mem_append.2 (Or.inr (by simp))
        have hgc' : (d1.getContent.1.register img.id d.objs.length false false).gss = d.gss := hgc
        obtain ⟨r1, r2, l, r3⟩ := both_maskGroup S h3 img.id d.objs.length gs hx (by rw [hgc']; exact hgs)
        refine ⟨r1, ?_, ⟨l, by rw [r3, hgc']⟩⟩
        intro n hn
        simp at hn; subst hn
        exact r2

theorem both_imageWithOptions {d : Doc} (S : Stable0 P) (h : Both P d) (tag : Nat) (img : Img) (tr : Option Tr)
    (mask : Option (Img × Option Tr)) : Both P (d.imageWithOptions tag img tr mask).1 := by
  unfold Doc.imageWithOptions
  simp only []
  obtain ⟨h1, g1, _, _⟩ := both_cachedTransparency S h tr
  generalize d.cachedTransparency tr = r1 at h1 g1
  obtain ⟨d1, t1⟩ := r1
  simp only [] at h1 g1 ⊢
  cases mask with
  | none => exact both_imageByHolder S h1 tag img _ _ g1
  | some mm =>
    obtain ⟨m, mtr⟩ := mm
    simp only []
    obtain ⟨h2, g2, ⟨l2, e2⟩, _⟩ := both_cachedTransparency S h1 mtr
    generalize d1.cachedTransparency mtr = r2 at h2 g2 e2
    obtain ⟨d2, t2⟩ := r2
    simp only [] at h2 g2 e2 ⊢
    obtain ⟨h3, g3, l3, e3⟩ := both_maskHolder (tag := tag) S h2 m t2.toList g2
    generalize d2.maskHolder tag m t2.toList = r3 at h3 g3 e3
    obtain ⟨d3, o3, oc⟩ := r3
    simp only [] at h3 g3 e3 ⊢
    split
    · next g heq =>
      cases heq
      apply both_imageByHolder S h3
      intro n hn
      rcases List.mem_append.1 hn with hn | hn
      · obtain ⟨k, i, x1, x2⟩ := g1 n hn
        refine ⟨k, i, x1, ?_⟩
        rw [e3, e2]; simp [x2]
      · simp at hn; subst hn; exact g3 _ rfl
    · next _ heq => cases heq; exact h3

/-- Every call preserves a stable predicate. -/
theorem both_step {d : Doc} (S : Stable0 P) (h : Both P d) (op : Op) (hc : op = .compile → P d.prepare) :
    Both P (step d op).1 := by
  have plain : ∀ tag, EntryOK d { tag := tag } := fun tag => ⟨by simp, by simp, by simp, by simp⟩
  cases op with
  | addPage => exact ⟨Base.stable.addPage d h.1 h.1, S.addPage d h.1 h.2⟩
  | draw tag np =>
    simp only [step]; split
    · exact both_appendPaged S h (plain tag)
    · exact both_append S h (plain tag)
  | drawTr tag tr =>
    obtain ⟨h1, g1, _, _⟩ := both_cachedTransparency S h tr
    exact both_appendPaged S h1 ⟨g1, by simp, by simp, by simp⟩
  | text tag =>
    simp only [step]; split
    · exact h
    · next i c hf =>
      exact both_appendPaged S h ⟨by simp, by
        intro n hn; simp at hn; subst hn; exact ⟨i, c, hf, rfl⟩, by simp, by simp⟩
  | cell tag tr =>
    obtain ⟨h1, g1, _, _⟩ := both_cachedTransparency S h tr
    simp only [step]; split
    · exact h1
    · next i c hf =>
      exact both_appendPaged S h1 ⟨g1, by
        intro n hn; simp at hn; subst hn; exact ⟨i, c, hf, rfl⟩, by simp, by simp⟩
  | setTransparency t =>
    obtain ⟨h1, g1, _, _⟩ := both_saveTransparency S h t
    exact ⟨Base.stable.setTr _ _ h1.1 h1.1 g1, S.setTr _ _ h1.1 h1.2 g1⟩
  | clearTransparency => exact ⟨Base.stable.setTr _ _ h.1 h.1 (by simp), S.setTr _ _ h.1 h.2 (by simp)⟩
  | addFont f s ok =>
    simp only [step]; split
    · exact ⟨Base.stable.addFont d f s h.1 h.1, S.addFont d f s h.1 h.2⟩
    · exact h
  | setFont f s => exact ⟨Base.stable.setFont d f s h.1 h.1, S.setFont d f s h.1 h.2⟩
  | image tag img => exact both_imageByHolder S h tag img [] _ (by simp)
  | imageOpt tag img tr mask => exact both_imageWithOptions S h tag img tr mask
  | addColorSpace n => exact ⟨Base.stable.addColorSpace d n h.1 h.1, S.addColorSpace d n h.1 h.2⟩
  | setColorSpace tag n =>
    simp only [step, Doc.setColorSpace]
    split
    · next i nm c heq =>
      refine both_append S h ⟨by simp, by simp, by simp, ?_⟩
      intro k hk
      simp at hk; subst hk
      obtain ⟨j, _, _, hp, _⟩ := findFrom_some heq
      simp [isCS] at hp
      subst hp
      exact ⟨i, nm, c, heq, rfl⟩
    · exact h
  | externalLink => exact ⟨Base.stable.addLink d _ h.1 h.1, S.addLink d _ h.1 h.2⟩
  | internalLink a => exact ⟨Base.stable.addLink d _ h.1 h.1, S.addLink d _ h.1 h.2⟩
  | setAnchor n y => exact ⟨Base.stable.setAnchor d n y h.1 h.1, S.setAnchor d n y h.1 h.2⟩
  | addOutline t => exact ⟨Base.stable.addOutline d t h.1 h.1, S.addOutline d t h.1 h.2⟩
  | importObjects n =>
    simp only [step]
    induction n with
    | zero => simpa using h
    | succ n ih =>
      have := ih (by simp)
      rw [List.replicate_succ', ← List.append_assoc]
      exact ⟨Base.stable.imported _ this.1 this.1, S.imported _ this.1 this.2⟩
  | setPage k => exact ⟨Base.stable.setPage d k h.1 h.1, S.setPage d k h.1 h.2⟩
  | compile => exact ⟨Base.stable.prepare d h.1 h.1, hc rfl⟩

theorem both_exec0 {d : Doc} (S : Stable0 P) (h : Both P d) (ops : List Op) (hc : .compile ∉ ops) : Both P (exec d ops) := by
  induction ops generalizing d with
  | nil => exact h
  | cons op ops ih =>
    exact ih (both_step S h op (by rintro rfl; exact absurd (List.mem_cons_self ..) hc))
      (fun hm => hc (List.mem_cons_of_mem _ hm))

omit S in
theorem both_exec {d : Doc} (S : Stable P) (h : Both P d) (ops : List Op) : Both P (exec d ops) := by
  induction ops generalizing d with
  | nil => exact h
  | cons op ops ih => exact ih (both_step S.toStable0 h op (fun _ => S.prepare d h.1 h.2))

omit S in
/-- The induction principle: a stable predicate true after `start` holds in every reachable state. -/
theorem reachable_of_stable (S : Stable P) (h0 : ∀ p, P (start p)) {d : Doc} (h : Reachable d) : Base d ∧ P d := by
  obtain ⟨p, ops, rfl⟩ := h
  exact both_exec S ⟨Base.start p, h0 p⟩ ops

theorem reachable_base {d : Doc} (h : Reachable d) : Base d := (reachable_of_stable Base.stable Base.start h).1

end

end Verif.Doc
