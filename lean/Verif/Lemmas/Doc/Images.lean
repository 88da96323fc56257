import Verif.Lemmas.Doc.Links
namespace Verif.Doc

def Obj.imgv : Obj → Option Nat
  | .image id _ _ _ => some id
  | _ => none

theorem imgv_blind : Blind Obj.imgv true := by
  constructor <;> intros <;>
    first | rfl | (next o => cases o <;> rfl) | (next e o => cases o <;> rfl) | (next h _ _ _ _ => simp at h)

theorem filterMap_congr' {α β : Type} {l : List α} {f g : α → Option β} (h : ∀ x ∈ l, f x = g x) :
    l.filterMap f = l.filterMap g := by
  induction l with
  | nil => rfl
  | cons a l ih =>
    rw [List.filterMap_cons, List.filterMap_cons, h a (by simp), ih (fun x hx => h x (by simp [hx]))]

/-- (id, index) of the image objects. -/
def pairs (l : List Obj) : List (Nat × Nat) :=
  (List.range l.length).filterMap (fun i => ((l.map Obj.imgv)[i]?).join.map (fun id => (id, i)))

theorem imageObjs_eq (d : Doc) : d.imageObjs = (pairs d.objs).map (fun p => (p.1, p.2 + 1)) := by
  unfold Doc.imageObjs pairs
  rw [List.map_filterMap]
  apply filterMap_congr'
  intro i hi
  rw [objAt_succ, List.getElem?_map]
  cases h : d.objs[i]? with
  | none => simp
  | some o => cases o <;> simp [Obj.imgv]

theorem pairs_append (l m : List Obj) (h : ∀ o ∈ m, o.imgv = none) : pairs (l ++ m) = pairs l := by
  unfold pairs
  rw [List.length_append, List.range_add, List.filterMap_append]
  have h1 : ((List.range m.length).map (l.length + ·)).filterMap
      (fun i => (((l ++ m).map Obj.imgv)[i]?).join.map (fun id => (id, i))) = [] := by
    rw [List.filterMap_eq_nil_iff]
    intro i hi
    obtain ⟨j, hj, rfl⟩ := List.mem_map.1 hi
    simp only [List.mem_range] at hj
    rw [List.getElem?_map, List.getElem?_append_right (by omega), Nat.add_sub_cancel_left, List.getElem?_eq_getElem hj]
    simp [h _ (List.getElem_mem hj)]
  rw [h1, List.append_nil]
  apply filterMap_congr'
  intro i hi
  rw [List.mem_range] at hi
  rw [List.getElem?_map, List.getElem?_map, List.getElem?_append_left hi]

theorem pairs_congr {l m : List Obj} (h : m.map Obj.imgv = l.map Obj.imgv) : pairs m = pairs l := by
  unfold pairs
  have : m.length = l.length := by simpa using congrArg List.length h
  rw [h, this]

theorem pairs_image (l : List Obj) (id : Nat) (m : ImgInfo) (s r : Option Nat) :
    pairs (l ++ [.image id m s r]) = pairs l ++ [(id, l.length)] := by
  unfold pairs
  rw [List.length_append, List.length_singleton, List.range_succ, List.filterMap_append]
  congr 1
  · apply filterMap_congr'
    intro i hi
    rw [List.mem_range] at hi
    rw [List.getElem?_map, List.getElem?_map, List.getElem?_append_left hi]
  · simp [Obj.imgv]

theorem pairs_gext {d d' : Doc} (h : GExt Obj.imgv true d d') : pairs d'.objs = pairs d.objs ∧ d'.imgs = d.imgs := by
  obtain ⟨⟨n, e⟩, _, _, _, h4⟩ := h
  refine ⟨?_, h4 rfl⟩
  have hp : d'.objs.map Obj.imgv = (d.objs ++ List.replicate n Obj.imported).map Obj.imgv := by
    rw [e]; simp [Obj.imgv]
  rw [pairs_congr hp, pairs_append]
  intro o ho
  rw [List.eq_of_mem_replicate ho]; rfl

/-- Every image object is in the cache. -/
def IP (d : Doc) : Prop := pairs d.objs = d.imgs

theorem IP.gext {d d' : Doc} (h : IP d) (g : GExt Obj.imgv true d d') : IP d' := by
  obtain ⟨h1, h2⟩ := pairs_gext g
  unfold IP; rw [h1, h2]; exact h

theorem IP.register {d : Doc} (id i : Nat) (a x : Bool) (h : pairs d.objs = d.imgs ++ [(id, i)]) :
    IP (d.register id i a x) := by
  have s1 : ∀ e : Doc, GExt Obj.imgv true e (e.addSMaskImage i) := fun e =>
    (GExt.add e .imageSMask rfl).trans (GExt.upd _ _ _ (imgv_blind.setSMask _))
  have s2 : ∀ e : Doc, GExt Obj.imgv true e (e.addPalette i) := fun e =>
    (GExt.add e .deviceRGB rfl).trans (GExt.upd _ _ _ (imgv_blind.setRGB _))
  have c0 : IP (d.cacheImage id i) := by
    unfold IP
    show pairs (d.objs.modify procIdx (Obj.addXobj i)) = d.imgs ++ [(id, i)]
    rw [← h]
    exact pairs_congr (map_modify' _ (imgv_blind.addXobj _) _ _)
  unfold Doc.register
  simp only []
  split <;> split
  · exact (c0.gext (s1 _)).gext (s2 _)
  · exact c0.gext (s2 _)
  · exact c0.gext (s1 _)
  · exact c0

theorem appendPaged_ok {d : Doc} {p : Nat} (h : d.curPage = some p) (e : Entry) : (d.appendPaged e) = (d.append e, .ok) := by
  simp [Doc.appendPaged, h]

theorem IP.imageByHolder {d : Doc} (h : IP d) {p : Nat} (hp : d.curPage = some p) (tag : Nat) (img : Img) (gs : List Nat) (split : Bool) :
    IP (d.imageByHolder tag img gs split).1 := by
  unfold Doc.imageByHolder
  split
  · exact h.gext (GExt.appendPaged imgv_blind d _)
  · split
    · exact h
    · next a x _ =>
      simp only []
      rw [appendPaged_ok (show (d.add _).curPage = some p from hp)]
      simp only []
      apply IP.register
      obtain ⟨h1, h2⟩ := pairs_gext (GExt.append imgv_blind (d.add (.image img.id ⟨false, a, x, split⟩ none none))
        { tag := tag, xobj := some (d.objs.length + 1), gs := gs })
      rw [h1, h2]
      show pairs (d.objs ++ [_]) = d.imgs ++ _
      rw [pairs_image, h]

theorem IP.maskHolder {tag : Nat} {d : Doc} (h : IP d) {p : Nat} (hp : d.curPage = some p) (img : Img) (gs : List Nat) :
    IP (d.maskHolder tag img gs).1 ∧ (d.maskHolder tag img gs).1.curPage = some p := by
  have hg := GExt.maskHolder (tag := tag) outv_blind rfl d img gs
  refine ⟨?_, hg.curPage.trans hp⟩
  unfold Doc.maskHolder
  split
  · simp only [hp, Option.isNone_some, Bool.false_eq_true, if_false]
    exact h.gext ((GExt.getContent imgv_blind d).trans (GExt.maskGroup imgv_blind _ _ _))
  · split
    · exact h
    · next a x _ =>
      have hc : (d.add (.image img.id ⟨true, a, x, false⟩ none none)).curPage = some p := hp
      simp only [hc, Option.isNone_some, Bool.false_eq_true, if_false]
      refine IP.gext ?_ (GExt.maskGroup imgv_blind _ _ _)
      apply IP.register
      obtain ⟨h1, h2⟩ := pairs_gext (GExt.getContent imgv_blind (d.add (.image img.id ⟨true, a, x, false⟩ none none)))
      rw [h1, h2]
      show pairs (d.objs ++ [_]) = d.imgs ++ _
      rw [pairs_image, h]

theorem IP.imageWithOptions {d : Doc} (h : IP d) {p : Nat} (hp : d.curPage = some p) (tag : Nat) (img : Img)
    (tr : Option Tr) (mask : Option (Img × Option Tr)) : IP (d.imageWithOptions tag img tr mask).1 := by
  unfold Doc.imageWithOptions
  have g1 := GExt.cachedTransparency imgv_blind d tr
  have i1 := h.gext g1
  have c1 := g1.curPage.trans hp
  simp only []
  split
  · exact i1.imageByHolder c1 _ _ _ _
  · next m mtr =>
    have g2 := GExt.cachedTransparency imgv_blind (d.cachedTransparency tr).1 mtr
    have i2 := i1.gext g2
    have c2 := g2.curPage.trans c1
    obtain ⟨i3, c3⟩ := i2.maskHolder (tag := tag) c2 m ((d.cachedTransparency tr).1.cachedTransparency mtr).2.toList
    revert i3 c3
    generalize Doc.maskHolder _ _ m _ = r
    obtain ⟨d', g, o⟩ := r
    intro i3 c3
    split
    · next heq => cases heq; exact i3.imageByHolder c3 _ _ _ _
    · next _ heq => cases heq; exact i3

theorem IP.step {d : Doc} (h : IP d) (op : Op) (hp : op.isImage = true → d.curPage.isSome = true) : IP (step d op).1 := by
  by_cases hi : op.isImage = true
  · obtain ⟨p, hc⟩ := Option.isSome_iff_exists.1 (hp hi)
    cases op <;> simp [Op.isImage] at hi
    · exact h.imageByHolder hc _ _ _ _
    · exact h.imageWithOptions hc _ _ _ _
  · by_cases hs : op.structural = false
    · exact h.gext (step_gext imgv_blind d op hs (Or.inl (by simpa using hi)))
    · have hl : ∀ a, IP (d.addLink a).1 := by
        intro a
        unfold IP
        have : (d.addLink a).1.imgs = d.imgs := by rw [addLink_fields]
        rw [this, ← h]
        unfold Doc.addLink
        split
        · rfl
        · simp only [Doc.upd]
          rw [pairs_congr (map_modify' _ (by intro o; cases o <;> rfl) _ _)]
          exact pairs_append _ _ (by simp [Obj.imgv])
      cases op <;> simp [Op.structural] at hs
      · unfold IP
        show pairs (d.objs ++ [_]) = d.imgs
        rw [pairs_append _ _ (by simp [Obj.imgv]), h]
      · exact hl _
      · exact hl _
      · exact h
      · next t =>
        unfold IP
        show pairs (d.addOutline t).objs = (d.addOutline t).imgs
        have : (d.addOutline t).imgs = d.imgs := by rw [addOutline_fields]
        rw [this, ← h]
        have h1 : pairs (markObjs d t) = pairs d.objs := by
          unfold markObjs
          rw [pairs_congr (map_modify' _ (by intro o; cases o <;> rfl) _ _)]
          exact pairs_append _ _ (by simp [Obj.imgv])
        cases hl : d.lastOutline with
        | none => rw [addOutline_none t hl, h1]
        | some j => rw [addOutline_some t hl, pairs_congr (map_modify' _ (by intro o; cases o <;> rfl) _ _), h1]

end Verif.Doc
