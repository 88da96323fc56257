import Verif.Lemmas.Doc.Res
/- Induction for predicates that only look at pages, annotations and bookmarks. -/
namespace Verif.Doc

variable {β : Type}

/-- A projection of objects that sees nothing of fonts, images, resources and streams, and nothing compiling changes. -/
structure Blind (g : Obj → Option β) (w : Bool) : Prop where
  addEntry : ∀ e o, g (Obj.addEntry e o) = g o
  addFontRel : ∀ e o, g (Obj.addFontRel e o) = g o
  addCSRel : ∀ e o, g (Obj.addCSRel e o) = g o
  addXobj : ∀ e o, g (Obj.addXobj e o) = g o
  addGS : ∀ e o, g (Obj.addGS e o) = g o
  setSMask : ∀ e o, g (Obj.setSMask e o) = g o
  setRGB : ∀ e o, g (Obj.setRGB e o) = g o
  addKid : ∀ e o, g (Obj.addKid e o) = g o
  addContentId : ∀ e o, g (Obj.addContentId e o) = g o
  useOutlines : ∀ o, g (Obj.useOutlines o) = g o
  content : ∀ e, g (.content e) = none
  unicodeMap : g .unicodeMap = none
  fontFile : g .fontFile = none
  fontDesc : ∀ e, g (.fontDesc e) = none
  cidFont : ∀ e, g (.cidFont e) = none
  font : ∀ a b c d e, g (.font a b c d e) = none
  image : w = false → ∀ a b c d, g (.image a b c d) = none
  imageSMask : g .imageSMask = none
  deviceRGB : g .deviceRGB = none
  extGS : ∀ e, g (.extGS e) = none
  softMask : ∀ e, g (.softMask e) = none
  group : ∀ e, g (.group e) = none
  colorSpace : ∀ a b, g (.colorSpace a b) = none
  imported : g .imported = none
  encryption : g .encryption = none

/-- `d'` looks like `d` with invisible objects appended, and has the same current page, anchors and last bookmark. -/
structure GExt (g : Obj → Option β) (w : Bool) (d d' : Doc) : Prop where
  objs : ∃ n, d'.objs.map g = d.objs.map g ++ List.replicate n none
  curPage : d'.curPage = d.curPage
  lastOutline : d'.lastOutline = d.lastOutline
  anchors : d'.anchors = d.anchors
  imgs : w = true → d'.imgs = d.imgs

variable {g : Obj → Option β} {w : Bool}

theorem GExt.of_objs {d d' : Doc} (h : d'.objs = d.objs) (h1 : d'.curPage = d.curPage)
    (h2 : d'.lastOutline = d.lastOutline) (h3 : d'.anchors = d.anchors)
    (h4 : w = true → d'.imgs = d.imgs) : GExt g w d d' := ⟨⟨0, by simp [h]⟩, h1, h2, h3, h4⟩
theorem GExt.refl (d : Doc) : GExt g w d d := .of_objs rfl rfl rfl rfl (fun _ => rfl)
theorem GExt.trans {a b c : Doc} (h : GExt g w a b) (h' : GExt g w b c) : GExt g w a c := by
  obtain ⟨⟨n, e⟩, h1, h2, h3, h4⟩ := h
  obtain ⟨⟨m, e'⟩, h1', h2', h3', h4'⟩ := h'
  exact ⟨⟨n + m, by rw [e', e, List.append_assoc, List.replicate_append_replicate]⟩, h1'.trans h1, h2'.trans h2, h3'.trans h3,
    fun hw => (h4' hw).trans (h4 hw)⟩
theorem GExt.add (d : Doc) (o : Obj) (h : g o = none) : GExt g w d (d.add o) := ⟨⟨1, by simp [Doc.add, h]⟩, rfl, rfl, rfl, fun _ => rfl⟩
theorem map_modify' (f : Obj → Obj) (h : ∀ o, g (f o) = g o) (l : List Obj) (i : Nat) :
    (l.modify i f).map g = l.map g := by
  induction l generalizing i with
  | nil => simp
  | cons a l ih => cases i with
    | zero => simp [h]
    | succ i => simp [ih]
theorem GExt.upd (d : Doc) (i : Nat) (f : Obj → Obj) (h : ∀ o, g (f o) = g o) : GExt g w d (d.upd i f) :=
  ⟨⟨0, by simp [Doc.upd, map_modify' f h]⟩, rfl, rfl, rfl, fun _ => rfl⟩

theorem GExt.getContent (B : Blind g w) (d : Doc) : GExt g w d d.getContent.1 := by
  unfold Doc.getContent; split
  · exact GExt.refl d
  · exact (GExt.add d (.content []) (B.content _)).trans (.of_objs rfl rfl rfl rfl (fun _ => rfl))

theorem prepStep_map (B : Blind g w) (st : List Obj × Option Nat × Nat) (i : Nat) : (prepStep st i).1.map g = st.1.map g := by
  unfold prepStep
  split
  · exact map_modify' _ (B.addKid _) _ _
  · split
    · exact map_modify' _ (B.addContentId _) _ _
    · rfl
  · rfl
  · rfl

theorem prepFold_map (B : Blind g w) (l : List Nat) (st : List Obj × Option Nat × Nat) :
    (l.foldl prepStep st).1.map g = st.1.map g := by
  induction l generalizing st with
  | nil => rfl
  | cons i l ih => rw [List.foldl_cons, ih, prepStep_map B]

theorem GExt.markOutlines (B : Blind g w) (d : Doc) : GExt g w d d.markOutlines := by
  unfold Doc.markOutlines
  split
  · split
    · exact GExt.upd _ _ _ B.useOutlines
    · exact GExt.refl _
  · exact GExt.refl _

theorem GExt.prepare (B : Blind g w) (d : Doc) : GExt g w d d.prepare := by
  have h0 : GExt g w d d.prep0 := by
    unfold Doc.prep0
    have h1 : GExt g w d (if d.prot then d.add .encryption else d) := by
      split
      · exact GExt.add d _ B.encryption
      · exact GExt.refl d
    exact h1.trans (GExt.markOutlines B _)
  refine h0.trans ⟨⟨0, ?_⟩, rfl, rfl, rfl, fun _ => rfl⟩
  rw [prepare_eq]
  simp [prepFold_map B]

theorem GExt.append (B : Blind g w) (d : Doc) (e : Entry) : GExt g w d (d.append e) :=
  (GExt.getContent B d).trans (GExt.upd _ _ _ (B.addEntry e))

theorem GExt.appendPaged (B : Blind g w) (d : Doc) (e : Entry) : GExt g w d (d.appendPaged e).1 := by
  unfold Doc.appendPaged
  split
  · exact GExt.getContent B d
  · exact GExt.append B d e

theorem GExt.extGState (B : Blind g w) (d : Doc) (k : GKey) : GExt g w d (d.extGState k).1 := by
  unfold Doc.extGState; split
  · exact GExt.refl d
  · exact ((GExt.add d (.extGS k) (B.extGS _)).trans (GExt.upd _ procIdx _ (B.addGS _))).trans (.of_objs rfl rfl rfl rfl (fun _ => rfl))

theorem GExt.saveTransparency (B : Blind g w) (d : Doc) (t : Tr) : GExt g w d (d.saveTransparency t).1 := by
  unfold Doc.saveTransparency
  split
  · exact GExt.refl d
  · split
    · exact GExt.refl d
    · exact (GExt.extGState B d _).trans (.of_objs rfl rfl rfl rfl (fun _ => rfl))

theorem GExt.cachedTransparency (B : Blind g w) (d : Doc) (t : Option Tr) : GExt g w d (d.cachedTransparency t).1 := by
  unfold Doc.cachedTransparency
  cases t with
  | none => exact GExt.refl d
  | some t => exact GExt.saveTransparency B d t

theorem GExt.cacheImage (B : Blind g w) (hw : w = false) (d : Doc) (id i : Nat) : GExt g w d (d.cacheImage id i) :=
  (GExt.upd d procIdx (Obj.addXobj i) (B.addXobj _)).trans (.of_objs rfl rfl rfl rfl (fun h => by rw [hw] at h; simp at h))

theorem GExt.register (B : Blind g w) (hw : w = false) (d : Doc) (id i : Nat) (a x : Bool) : GExt g w d (d.register id i a x) := by
  have c0 := GExt.cacheImage B hw d id i
  have s1 : ∀ e : Doc, GExt g w e (e.addSMaskImage i) := fun e =>
    (GExt.add e .imageSMask B.imageSMask).trans (GExt.upd _ _ _ (B.setSMask _))
  have s2 : ∀ e : Doc, GExt g w e (e.addPalette i) := fun e =>
    (GExt.add e .deviceRGB B.deviceRGB).trans (GExt.upd _ _ _ (B.setRGB _))
  unfold Doc.register
  simp only []
  split <;> split
  · exact (c0.trans (s1 _)).trans (s2 _)
  · exact c0.trans (s2 _)
  · exact c0.trans (s1 _)
  · exact c0

theorem GExt.imageByHolder (B : Blind g w) (hw : w = false) (d : Doc) (tag : Nat) (img : Img) (gs : List Nat) (split : Bool) :
    GExt g w d (d.imageByHolder tag img gs split).1 := by
  unfold Doc.imageByHolder
  split
  · exact GExt.appendPaged B d _
  · split
    · exact GExt.refl d
    · next hasAlpha indexed _ =>
      simp only []
      have h0 : GExt g w d (d.add (.image img.id ⟨false, hasAlpha, indexed, split⟩ none none)) := GExt.add d _ (B.image hw _ _ _ _)
      generalize hd1 : d.add (.image img.id ⟨false, hasAlpha, indexed, split⟩ none none) = d1 at h0
      have h1 := h0.trans (GExt.appendPaged B d1 { tag := tag, xobj := some (d.objs.length + 1), gs := gs })
      generalize hap : d1.appendPaged { tag := tag, xobj := some (d.objs.length + 1), gs := gs } = ap at h1
      obtain ⟨d2, o⟩ := ap
      cases o with
      | ok => exact h1.trans (GExt.register B hw d2 img.id d.objs.length hasAlpha indexed)
      | err => exact h1
      | panic => exact h1

theorem GExt.softMask (B : Blind g w) (d : Doc) (m : Nat) : GExt g w d (d.softMask m).1 := by
  unfold Doc.softMask; split
  · exact GExt.refl d
  · exact (GExt.add d (.softMask m) (B.softMask _)).trans (.of_objs rfl rfl rfl rfl (fun _ => rfl))

theorem GExt.maskGroup {tag : Nat} (B : Blind g w) (d : Doc) (x : Nat) (gs : List Nat) : GExt g w d (d.maskGroup tag x gs).1 := by
  unfold Doc.maskGroup
  simp only []
  exact (GExt.add d _ (B.group _)).trans ((GExt.softMask B _ _).trans (GExt.extGState B _ _))

theorem GExt.maskHolder {tag : Nat} (B : Blind g w) (hw : w = false) (d : Doc) (img : Img) (gs : List Nat) : GExt g w d (d.maskHolder tag img gs).1 := by
  unfold Doc.maskHolder
  split
  · split
    · exact GExt.getContent B d
    · exact (GExt.getContent B d).trans (GExt.maskGroup B _ _ _)
  · split
    · exact GExt.refl d
    · simp only []
      split
      · exact (GExt.add d _ (B.image hw _ _ _ _)).trans (GExt.getContent B _)
      · exact (((GExt.add d _ (B.image hw _ _ _ _)).trans (GExt.getContent B _)).trans (GExt.register B hw _ _ _ _ _)).trans
          (GExt.maskGroup B _ _ _)

theorem GExt.imageWithOptions (B : Blind g w) (hw : w = false) (d : Doc) (tag : Nat) (img : Img) (tr : Option Tr)
    (mask : Option (Img × Option Tr)) : GExt g w d (d.imageWithOptions tag img tr mask).1 := by
  unfold Doc.imageWithOptions
  simp only []
  refine (GExt.cachedTransparency B d tr).trans ?_
  split
  · exact GExt.imageByHolder B hw _ _ _ _ _
  · next m mtr =>
    refine (GExt.cachedTransparency B _ mtr).trans ?_
    have h := GExt.maskHolder (tag := tag) B hw ((d.cachedTransparency tr).1.cachedTransparency mtr).1 m
      ((d.cachedTransparency tr).1.cachedTransparency mtr).2.toList
    revert h
    generalize Doc.maskHolder _ _ m _ = r
    obtain ⟨d', g, o⟩ := r
    intro h
    split
    · next heq => cases heq; exact h.trans (GExt.imageByHolder B hw _ _ _ _ _)
    · next _ heq => cases heq; exact h

theorem GExt.addFont (B : Blind g w) (d : Doc) (f s : Nat) : GExt g w d (d.addFont f s) := by
  unfold Doc.addFont
  simp only []
  have h5 : ∀ a b c e k : Obj, g a = none → g b = none → g c = none → g e = none → g k = none →
      GExt g w d (((((d.add a).add b).add c).add e).add k) := fun a b c e k ha hb hc he hg =>
    ((((GExt.add d a ha).trans (GExt.add _ b hb)).trans (GExt.add _ c hc)).trans
      (GExt.add _ e he)).trans (GExt.add _ k hg)
  have h6 := fun cnt => h5 .unicodeMap .fontFile (.fontDesc (d.objs.length + 1)) (.cidFont (d.objs.length + 2))
    (.font f s cnt (d.objs.length + 3) d.objs.length) B.unicodeMap B.fontFile (B.fontDesc _) (B.cidFont _) (B.font _ _ _ _ _)
  split
  · exact ((h6 _).trans (GExt.upd _ procIdx _ (B.addFontRel _))).trans (.of_objs rfl rfl rfl rfl (fun _ => rfl))
  · exact h6 _

theorem GExt.addColorSpace (B : Blind g w) (d : Doc) (n : Nat) : GExt g w d (d.addColorSpace n).1 := by
  unfold Doc.addColorSpace
  simp only []
  split
  · exact GExt.add d _ (B.colorSpace _ _)
  · exact ((GExt.add d (.colorSpace n d.csCount) (B.colorSpace _ _)).trans (GExt.upd _ procIdx _ (B.addCSRel _))).trans
      (.of_objs rfl rfl rfl rfl (fun _ => rfl))

/-- The calls that change pages, annotations, anchors or bookmarks. -/
def Op.structural : Op → Bool
  | .addPage | .externalLink | .internalLink _ | .setAnchor _ _ | .addOutline _ => true
  | _ => false

/-- The calls that draw images. -/
def Op.isImage : Op → Bool
  | .image _ _ | .imageOpt _ _ _ _ => true
  | _ => false

/-- All other calls only append invisible objects. -/
theorem step_gext (B : Blind g w) (d : Doc) (op : Op) (h : op.structural = false) (hi : op.isImage = false ∨ w = false) : GExt g w d (step d op).1 := by
  cases op with
  | addPage => simp [Op.structural] at h
  | draw tag np => simp only [step]; split; exact GExt.appendPaged B d _; exact GExt.append B d _
  | drawTr tag tr => exact (GExt.cachedTransparency B d tr).trans (GExt.appendPaged B _ _)
  | text tag =>
    simp only [step]; split
    · exact GExt.refl d
    · exact GExt.appendPaged B d _
  | cell tag tr =>
    simp only [step]
    refine (GExt.cachedTransparency B d tr).trans ?_
    split
    · exact GExt.refl _
    · exact GExt.appendPaged B _ _
  | setTransparency t => exact (GExt.saveTransparency B d t).trans (.of_objs rfl rfl rfl rfl (fun _ => rfl))
  | clearTransparency => exact .of_objs rfl rfl rfl rfl (fun _ => rfl)
  | addFont f s ok =>
    simp only [step]; split
    · exact GExt.addFont B d f s
    · exact GExt.refl d
  | setFont f s => show GExt g w d (d.setFont f s).1; rw [setFont_fields]; exact .of_objs rfl rfl rfl rfl (fun _ => rfl)
  | image tag img =>
    have hw : w = false := by simpa [Op.isImage] using hi
    exact GExt.imageByHolder B hw d _ _ _ _
  | imageOpt tag img tr mask =>
    have hw : w = false := by simpa [Op.isImage] using hi
    exact GExt.imageWithOptions B hw d _ _ _ _
  | addColorSpace n => exact GExt.addColorSpace B d n
  | setColorSpace tag n =>
    simp only [step, Doc.setColorSpace]
    split
    · exact GExt.append B d _
    · exact GExt.refl d
  | externalLink => simp [Op.structural] at h
  | internalLink a => simp [Op.structural] at h
  | setAnchor n y => simp [Op.structural] at h
  | addOutline t => simp [Op.structural] at h
  | importObjects n => exact ⟨⟨n, by simp [step, B.imported]⟩, rfl, rfl, rfl, fun _ => rfl⟩
  | setPage k => show GExt g w d (d.setPage k).1; rw [setPage_fields]; exact .of_objs rfl rfl rfl rfl (fun _ => rfl)
  | compile => exact GExt.prepare B d

end Verif.Doc
