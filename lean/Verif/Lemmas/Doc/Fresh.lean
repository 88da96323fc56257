import Verif.Lemmas.Doc.View
/- Before the first compile the page tree and the pages' contents are empty. -/
namespace Verif.Doc

/-- What `prepare` fills in. -/
def Obj.tree : Obj → Option (List Nat × Nat)
  | .pages k c => some (k, c)
  | .page c _ _ => some (c, 0)
  | _ => none

def Blank (x : Option (List Nat × Nat)) : Prop := x = none ∨ x = some ([], 0)

def Fresh (d : Doc) : Prop := ∀ o ∈ d.objs, Blank o.tree

def TreeExt (d d' : Doc) : Prop := ∃ l, d'.objs.map Obj.tree = d.objs.map Obj.tree ++ l ∧ ∀ x ∈ l, Blank x

theorem TreeExt.refl (d : Doc) : TreeExt d d := ⟨[], by simp, by simp⟩
theorem TreeExt.of_objs {d d' : Doc} (h : d'.objs = d.objs) : TreeExt d d' := ⟨[], by simp [h], by simp⟩
theorem TreeExt.trans {a b c : Doc} (h : TreeExt a b) (h' : TreeExt b c) : TreeExt a c := by
  obtain ⟨l, e, hl⟩ := h
  obtain ⟨l', e', hl'⟩ := h'
  refine ⟨l ++ l', by rw [e', e, List.append_assoc], ?_⟩
  intro o ho
  rcases List.mem_append.1 ho with h | h
  · exact hl o h
  · exact hl' o h
theorem TreeExt.add (d : Doc) (o : Obj) (h : Blank o.tree) : TreeExt d (d.add o) :=
  ⟨[o.tree], by simp [Doc.add], by simp [h]⟩
theorem TreeExt.upd (d : Doc) (i : Nat) (f : Obj → Obj) (h : ∀ o, (f o).tree = o.tree) : TreeExt d (d.upd i f) :=
  ⟨[], by
    have := map_modify Obj.tree f h d.objs i
    simpa [Doc.upd] using this, by simp⟩

theorem Fresh.frame {d d' : Doc} (h : Fresh d) (hn : TreeExt d d') : Fresh d' := by
  obtain ⟨l, e, hl⟩ := hn
  intro o ho
  have hm : o.tree ∈ d'.objs.map Obj.tree := List.mem_map.2 ⟨o, ho, rfl⟩
  rw [e] at hm
  rcases List.mem_append.1 hm with h1 | h1
  · obtain ⟨x, hx, e⟩ := List.mem_map.1 h1
    rw [← e]; exact h x hx
  · exact hl _ h1

theorem tree_addEntry (x : Entry) (o : Obj) : (o.addEntry x).tree = o.tree := by cases o <;> rfl
theorem tree_addGS (x : Nat) (o : Obj) : (o.addGS x).tree = o.tree := by cases o <;> rfl
theorem tree_addXobj (x : Nat) (o : Obj) : (o.addXobj x).tree = o.tree := by cases o <;> rfl
theorem tree_setSMask (x : Nat) (o : Obj) : (o.setSMask x).tree = o.tree := by cases o <;> rfl
theorem tree_setRGB (x : Nat) (o : Obj) : (o.setRGB x).tree = o.tree := by cases o <;> rfl
theorem tree_addLinkId (x : Nat) (o : Obj) : (o.addLinkId x).tree = o.tree := by cases o <;> rfl
theorem tree_addOutlineId (x : Nat) (o : Obj) : (o.addOutlineId x).tree = o.tree := by cases o <;> rfl
theorem tree_setNext (x : Nat) (o : Obj) : (o.setNext x).tree = o.tree := by cases o <;> rfl
theorem tree_addFontRel (x : RelFont) (o : Obj) : (o.addFontRel x).tree = o.tree := by cases o <;> rfl
theorem tree_addCSRel (x : RelCS) (o : Obj) : (o.addCSRel x).tree = o.tree := by cases o <;> rfl

theorem Fresh.stable0 : Stable0 Fresh where
  addPage := fun d _ h => h.frame (TreeExt.add d _ (Or.inr rfl))
  mkContent := fun d _ h _ => h.frame (by
    unfold Doc.getContent; split
    · exact TreeExt.refl d
    · exact TreeExt.add d _ (Or.inl rfl))
  entry := fun d i e _ h _ _ => h.frame (TreeExt.upd d i _ (tree_addEntry e))
  newGS := fun d k _ h _ _ => h.frame (by
    unfold Doc.extGState; split
    · exact TreeExt.refl d
    · exact (TreeExt.add d (.extGS k) (Or.inl rfl)).trans (TreeExt.upd _ procIdx _ (tree_addGS _)))
  newTr := fun _ _ _ _ _ h _ _ => h
  setTr := fun _ _ _ h _ => h
  addImage := fun d _ _ _ h _ => h.frame (TreeExt.add d _ (Or.inl rfl))
  register := fun d id m i _ h _ _ => h.frame (by
    have c0 : TreeExt d (d.cacheImage id i) := TreeExt.upd d procIdx (Obj.addXobj i) (tree_addXobj _)
    have s1 : ∀ e : Doc, TreeExt e (e.addSMaskImage i) := fun e =>
      (TreeExt.add e .imageSMask (Or.inl rfl)).trans (TreeExt.upd _ _ _ (tree_setSMask _))
    have s2 : ∀ e : Doc, TreeExt e (e.addPalette i) := fun e =>
      (TreeExt.add e .deviceRGB (Or.inl rfl)).trans (TreeExt.upd _ _ _ (tree_setRGB _))
    unfold Doc.register
    simp only []
    split <;> split
    · exact (c0.trans (s1 _)).trans (s2 _)
    · exact c0.trans (s2 _)
    · exact c0.trans (s1 _)
    · exact c0)
  group := fun d _ _ h _ => h.frame (TreeExt.add d _ (Or.inl rfl))
  softMask := fun d g _ h _ _ => h.frame (by
    unfold Doc.softMask; split
    · exact TreeExt.refl d
    · exact TreeExt.add d _ (Or.inl rfl))
  addFont := fun d f s b h => h.frame (by
    unfold Doc.addFont
    simp only []
    have h5 : ∀ a b c e g : Obj, a.tree = none → b.tree = none → c.tree = none → e.tree = none → g.tree = none →
        TreeExt d (((((d.add a).add b).add c).add e).add g) := fun a b c e g ha hb hc he hg =>
      ((((TreeExt.add d a (Or.inl ha)).trans (TreeExt.add _ b (Or.inl hb))).trans (TreeExt.add _ c (Or.inl hc))).trans
        (TreeExt.add _ e (Or.inl he))).trans (TreeExt.add _ g (Or.inl hg))
    split
    · exact (h5 _ _ _ _ _ rfl rfl rfl rfl rfl).trans (TreeExt.upd _ procIdx _ (tree_addFontRel _))
    · exact h5 _ _ _ _ _ rfl rfl rfl rfl rfl)
  setFont := fun d f s _ h => h.frame (TreeExt.of_objs (by rw [setFont_fields]))
  addColorSpace := fun d n b h => h.frame (by
    unfold Doc.addColorSpace
    simp only []
    split
    · exact TreeExt.add d _ (Or.inl rfl)
    · exact (TreeExt.add d (.colorSpace n d.csCount) (Or.inl rfl)).trans (TreeExt.upd _ procIdx _ (tree_addCSRel _)))
  addLink := fun d a _ h => h.frame (by
    unfold Doc.addLink; split
    · exact TreeExt.refl d
    · next p _ => exact (TreeExt.add d (.annot a) (Or.inl rfl)).trans (TreeExt.upd _ p _ (tree_addLinkId _)))
  setAnchor := fun _ _ _ _ h => h
  addOutline := fun d t _ h => h.frame (by
    unfold Doc.addOutline
    simp only []
    have k := (TreeExt.add d (.outline t d.curPageId 2 (d.lastOutline.map (· + 1)) none) (Or.inl rfl)).trans
      (TreeExt.upd _ outlinesIdx (Obj.addOutlineId (d.objs.length + 1)) (tree_addOutlineId _))
    split
    · exact k
    · next j _ => exact k.trans (TreeExt.upd _ j (Obj.setNext (d.objs.length + 1)) (tree_setNext _)))
  imported := fun d _ h => h.frame (TreeExt.add d _ (Or.inl rfl))
  setPage := fun d k _ h => h.frame (TreeExt.of_objs (by rw [setPage_fields]))

theorem Fresh.start (p : Bool) : Fresh (start p) := by
  intro o ho
  simp [Doc.start] at ho
  rcases ho with rfl | rfl | rfl | rfl <;> simp [Obj.tree, Blank]

/-- A history without compile leaves the page tree empty. -/
theorem exec_fresh (p : Bool) (h : List Op) (hc : .compile ∉ h) : Fresh (exec (start p) h) :=
  (both_exec0 Fresh.stable0 ⟨Base.start p, Fresh.start p⟩ h hc).2

end Verif.Doc
