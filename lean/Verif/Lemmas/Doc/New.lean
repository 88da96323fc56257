import Verif.Lemmas.Doc.Names
/- What objects are created after `Start`. -/
namespace Verif.Doc

/-- Identities of objects created by calls: no second catalog, page tree, outline root or resource object; pages all use
the one resource object; outline items all carry the same parent number. -/
def New : Obj → Prop
  | .catalog _ => False
  | .pages _ _ => False
  | .outlines _ _ _ => False
  | .procset _ _ _ _ => False
  | .page _ _ r => r = procIdx + 1
  | .outline _ _ p _ _ => p = 2
  | _ => True

theorem new_ident (o : Obj) : New o.ident = New o := by cases o <;> rfl

def NewOnly (d d' : Doc) : Prop := ∃ l, d'.idents = d.idents ++ l ∧ ∀ o ∈ l, New o

theorem NewOnly.refl (d : Doc) : NewOnly d d := ⟨[], by simp, by simp⟩
theorem NewOnly.of_objs {d d' : Doc} (h : d'.objs = d.objs) : NewOnly d d' := ⟨[], by simp [Doc.idents, h], by simp⟩
theorem NewOnly.trans {a b c : Doc} (h : NewOnly a b) (h' : NewOnly b c) : NewOnly a c := by
  obtain ⟨l, e, hl⟩ := h
  obtain ⟨l', e', hl'⟩ := h'
  refine ⟨l ++ l', by rw [e', e, List.append_assoc], ?_⟩
  intro o ho
  rcases List.mem_append.1 ho with h | h
  · exact hl o h
  · exact hl' o h
theorem NewOnly.add (d : Doc) (o : Obj) (h : New o) : NewOnly d (d.add o) :=
  ⟨[o.ident], idents_add d o, by simp [new_ident, h]⟩
theorem NewOnly.upd (d : Doc) (i : Nat) (f : Obj → Obj) (h : ∀ o, (f o).ident = o.ident) : NewOnly d (d.upd i f) :=
  ⟨[], by rw [idents_upd d i f h]; simp, by simp⟩

def AllNew (d : Doc) : Prop := ∀ i o, d.idents[i]? = some o → 4 ≤ i → New o

theorem AllNew.frame {d d' : Doc} (h : AllNew d) (hn : NewOnly d d') : AllNew d' := by
  obtain ⟨l, e, hl⟩ := hn
  intro i o hi h4
  rw [e] at hi
  rcases Nat.lt_or_ge i d.idents.length with hlt | hge
  · rw [List.getElem?_append_left hlt] at hi; exact h i o hi h4
  · rw [List.getElem?_append_right hge] at hi; exact hl o (List.mem_of_getElem? hi)

theorem AllNew.stable : Stable AllNew where
  addPage := fun d _ h => h.frame (NewOnly.add d _ rfl)
  mkContent := fun d _ h _ => h.frame (by
    unfold Doc.getContent; split
    · exact NewOnly.refl d
    · exact NewOnly.add d _ trivial)
  entry := fun d i e _ h _ _ => h.frame (NewOnly.upd d i _ (Obj.ident_addEntry e))
  newGS := fun d k _ h _ _ => h.frame (by
    unfold Doc.extGState; split
    · exact NewOnly.refl d
    · exact (NewOnly.add d (.extGS k) trivial).trans (NewOnly.upd _ procIdx _ (Obj.ident_addGS _)))
  newTr := fun _ _ _ _ _ h _ _ => h
  setTr := fun _ _ _ h _ => h
  addImage := fun d _ _ _ h _ => h.frame (NewOnly.add d _ trivial)
  register := fun d id m i _ h _ _ => h.frame (by
    have c0 : NewOnly d (d.cacheImage id i) := NewOnly.upd d procIdx (Obj.addXobj i) (Obj.ident_addXobj _)
    have s1 : ∀ e : Doc, NewOnly e (e.addSMaskImage i) := fun e =>
      (NewOnly.add e .imageSMask trivial).trans (NewOnly.upd _ _ _ (Obj.ident_setSMask _))
    have s2 : ∀ e : Doc, NewOnly e (e.addPalette i) := fun e =>
      (NewOnly.add e .deviceRGB trivial).trans (NewOnly.upd _ _ _ (Obj.ident_setRGB _))
    unfold Doc.register
    simp only []
    split <;> split
    · exact (c0.trans (s1 _)).trans (s2 _)
    · exact c0.trans (s2 _)
    · exact c0.trans (s1 _)
    · exact c0)
  group := fun d _ _ h _ => h.frame (NewOnly.add d _ trivial)
  softMask := fun d g _ h _ _ => h.frame (by
    unfold Doc.softMask; split
    · exact NewOnly.refl d
    · exact NewOnly.add d _ trivial)
  addFont := fun d f s b h => h.frame (by
    obtain ⟨cnt, hid, _⟩ := addFont_cases d b f s
    exact ⟨_, hid, by simp [New]⟩)
  setFont := fun d f s _ h => h.frame (NewOnly.of_objs (by rw [setFont_fields]))
  addColorSpace := fun d n b h => h.frame (by
    rcases addColorSpace_cases d b n with ⟨_, e⟩ | ⟨_, _, hid, _⟩
    · rw [e]; exact NewOnly.add d _ trivial
    · exact ⟨_, hid, by simp [New]⟩)
  addLink := fun d a _ h => h.frame (by
    unfold Doc.addLink; split
    · exact NewOnly.refl d
    · next p _ => exact (NewOnly.add d (.annot a) trivial).trans (NewOnly.upd _ p _ (Obj.ident_addLinkId _)))
  setAnchor := fun _ _ _ _ h => h
  addOutline := fun d t _ h => h.frame (by
    unfold Doc.addOutline
    simp only []
    have k := (NewOnly.add d (.outline t d.curPageId 2 (d.lastOutline.map (· + 1)) none) rfl).trans
      (NewOnly.upd _ outlinesIdx (Obj.addOutlineId (d.objs.length + 1)) (Obj.ident_addOutlineId _))
    split
    · exact k
    · next j _ => exact k.trans (NewOnly.upd _ j (Obj.setNext (d.objs.length + 1)) (Obj.ident_setNext _)))
  imported := fun d _ h => h.frame (NewOnly.add d _ trivial)
  setPage := fun d k _ h => h.frame (NewOnly.of_objs (by rw [setPage_fields]))
  prepare := fun d _ h => h.frame (by
    refine ⟨_, prepare_idents d, ?_⟩
    intro o ho
    split at ho
    · simp at ho; subst ho; exact trivial
    · simp at ho)

theorem AllNew.start (p : Bool) : AllNew (start p) := by
  intro i o hi h4
  exfalso
  have := lt_of_get hi
  simp [Doc.start, Doc.idents] at this
  omega

theorem reachable_new {d : Doc} (h : Reachable d) : AllNew d :=
  (reachable_of_stable AllNew.stable AllNew.start h).2

/-- Every object of a reachable document: one of the four of `Start` at its place, or a new one. -/
theorem reachable_obj {d : Doc} (h : Reachable d) {i : Nat} {o : Obj} (ho : d.objs[i]? = some o) :
    (i = 0 ∧ o.kind = .catalog) ∨ (i = 1 ∧ o.kind = .pageTree) ∨ (i = 2 ∧ o.kind = .outlineRoot) ∨
    (i = 3 ∧ o.kind = .resources) ∨ (4 ≤ i ∧ New o) := by
  have b := reachable_base h
  have hid := ident_at ho
  have hk : ∀ o', d.idents[i]? = some o' → o.kind = o'.kind := by
    intro o' h'
    rw [hid] at h'
    simp at h'
    rw [← h', kind_ident]
  match i, hid, hk with
  | 0, _, hk => exact Or.inl ⟨rfl, hk _ b.b0⟩
  | 1, _, hk => exact Or.inr (Or.inl ⟨rfl, hk _ b.b1⟩)
  | 2, _, hk => exact Or.inr (Or.inr (Or.inl ⟨rfl, hk _ b.b2⟩))
  | 3, _, hk => exact Or.inr (Or.inr (Or.inr (Or.inl ⟨rfl, hk _ b.b3⟩)))
  | n + 4, hid, _ =>
    refine Or.inr (Or.inr (Or.inr (Or.inr ⟨by omega, ?_⟩)))
    have := reachable_new h (n + 4) _ hid (by omega)
    rwa [new_ident] at this

end Verif.Doc
