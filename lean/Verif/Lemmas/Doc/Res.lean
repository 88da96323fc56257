import Verif.Lemmas.Doc.Refs
/- The resource dictionary, the caches, and their agreement. -/
namespace Verif.Doc

/-- Everything except what `prepare` changes. -/
def keep : Obj → Obj
  | .catalog _ => .catalog none
  | .pages _ _ => .pages [] 0
  | .page _ l r => .page [] l r
  | o => o

theorem keep_addKid (n : Nat) (o : Obj) : keep (o.addKid n) = keep o := by cases o <;> rfl
theorem keep_addContentId (n : Nat) (o : Obj) : keep (o.addContentId n) = keep o := by cases o <;> rfl
theorem keep_useOutlines (o : Obj) : keep o.useOutlines = keep o := by cases o <;> rfl

theorem prepStep_keep (st : List Obj × Option Nat × Nat) (i : Nat) : (prepStep st i).1.map keep = st.1.map keep := by
  unfold prepStep
  split
  · exact map_modify keep _ (keep_addKid _) _ _
  · split
    · exact map_modify keep _ (keep_addContentId _) _ _
    · rfl
  · rfl
  · rfl

theorem prepFold_keep (l : List Nat) (st : List Obj × Option Nat × Nat) :
    (l.foldl prepStep st).1.map keep = st.1.map keep := by
  induction l generalizing st with
  | nil => rfl
  | cons i l ih => simp only [List.foldl_cons]; rw [ih, prepStep_keep]

theorem markOutlines_keep (d : Doc) : d.markOutlines.objs.map keep = d.objs.map keep := by
  unfold Doc.markOutlines
  split
  · split
    · exact map_modify keep _ keep_useOutlines _ _
    · rfl
  · rfl

theorem prep0_keep (d : Doc) : d.prep0.objs.map keep = (d.objs ++ if d.prot then [Obj.encryption] else []).map keep := by
  unfold Doc.prep0
  rw [markOutlines_keep]
  cases d.prot <;> simp [Doc.add]

theorem prepare_keep (d : Doc) :
    d.prepare.objs.map keep = (d.objs ++ if d.prot then [Obj.encryption] else []).map keep := by
  rw [prepare_eq]
  show (List.foldl prepStep _ _).1.map keep = _
  rw [prepFold_keep, prep0_keep]

theorem prepare_fields (d : Doc) : d.prepare = { d with objs := d.prepare.objs, encId := d.prepare.encId } := by
  have hm : ∀ x : Doc, x.markOutlines = { x with objs := x.markOutlines.objs } := by
    intro x; unfold Doc.markOutlines; split <;> (try split) <;> rfl
  rw [prepare_eq]
  unfold Doc.prep0
  rw [hm]
  split <;> rfl

/-- Objects that `prepare` does not change. -/
def Plain (o : Obj) : Prop := ∀ x, keep x = o → x = o

theorem prepare_get {d : Doc} {i : Nat} {o : Obj} (hp : Plain o) (hk : keep o = o) (h : d.objs[i]? = some o) :
    d.prepare.objs[i]? = some o := by
  have h1 := prepare_keep d
  have h2 : (d.prepare.objs.map keep)[i]? = some (keep o) := by
    rw [h1, List.getElem?_map, List.getElem?_append_left (lt_of_get h), h]; rfl
  rw [List.getElem?_map] at h2
  cases hx : d.prepare.objs[i]? with
  | none => rw [hx] at h2; simp at h2
  | some x =>
    rw [hx] at h2; simp at h2
    rw [hk] at h2
    rw [hp x h2]

theorem prepare_get' {d : Doc} {i : Nat} {o : Obj} (hp : Plain o) (hk : keep o = o) (hne : o ≠ .encryption)
    (h : d.prepare.objs[i]? = some o) : d.objs[i]? = some o := by
  have h1 := prepare_keep d
  have h2 : (d.prepare.objs.map keep)[i]? = some o := by rw [List.getElem?_map, h]; simp [hk]
  rw [h1, List.getElem?_map] at h2
  rcases Nat.lt_or_ge i d.objs.length with hi | hi
  · rw [List.getElem?_append_left hi] at h2
    cases hx : d.objs[i]? with
    | none => rw [hx] at h2; simp at h2
    | some x => rw [hx] at h2; simp at h2; rw [hp x h2]
  · rw [List.getElem?_append_right hi] at h2
    cases hpr : d.prot with
    | false => rw [hpr] at h2; simp at h2
    | true =>
      rw [hpr] at h2
      simp at h2
      obtain ⟨x, hx, hk'⟩ := h2
      have : x = .encryption := by
        cases hi' : i - d.objs.length with
        | zero => rw [hi'] at hx; simp at hx; exact hx.symm
        | succ n => rw [hi'] at hx; simp at hx
      rw [this] at hk'; simp [keep] at hk'; exact absurd hk'.symm hne

theorem plain_procset (a b c e) : Plain (.procset a b c e) := by intro x; cases x <;> simp [keep]
theorem plain_content (a) : Plain (.content a) := by intro x; cases x <;> simp [keep]
theorem plain_group (a) : Plain (.group a) := by intro x; cases x <;> simp [keep]
theorem plain_image (a b c e) : Plain (.image a b c e) := by intro x; cases x <;> simp [keep]

/-- The resource object. -/
def Doc.proc (d : Doc) : Option Obj := d.objs[procIdx]?

theorem Base.len {d : Doc} (b : Base d) : procIdx < d.objs.length := by
  have := lt_of_get b.b3
  rw [idents_len] at this
  exact this

theorem proc_some {d : Doc} (b : Base d) : ∃ fs cs xs gs, d.proc = some (.procset fs cs xs gs) := by
  have h := b.b3
  unfold Doc.idents at h
  rw [List.getElem?_map] at h
  unfold Doc.proc
  cases ho : d.objs[procIdx]? with
  | none => rw [ho] at h; simp at h
  | some o =>
    rw [ho] at h
    simp at h
    cases o <;> simp [Obj.ident] at h
    exact ⟨_, _, _, _, rfl⟩

theorem proc_eq {d : Doc} (b : Base d) : d.proc = some (.procset d.relFonts d.relCSs d.relXobjs d.relGSs) := by
  obtain ⟨fs, cs, xs, gs, h⟩ := proc_some b
  have h' := h
  unfold Doc.proc at h
  rw [h']
  simp [Doc.relFonts, Doc.relCSs, Doc.relXobjs, Doc.relGSs, h]

theorem rel_of_proc {d : Doc} {fs cs xs gs} (h : d.proc = some (.procset fs cs xs gs)) :
    d.relFonts = fs ∧ d.relCSs = cs ∧ d.relXobjs = xs ∧ d.relGSs = gs := by
  unfold Doc.proc at h
  simp [Doc.relFonts, Doc.relCSs, Doc.relXobjs, Doc.relGSs, h]

theorem rel_congr {d d' : Doc} (h : d'.proc = d.proc) :
    d'.relFonts = d.relFonts ∧ d'.relCSs = d.relCSs ∧ d'.relXobjs = d.relXobjs ∧ d'.relGSs = d.relGSs := by
  unfold Doc.proc at h
  simp [Doc.relFonts, Doc.relCSs, Doc.relXobjs, Doc.relGSs, h]

theorem proc_add {d : Doc} (b : Base d) (o : Obj) : (d.add o).proc = d.proc := by
  unfold Doc.proc Doc.add
  simp only []
  rw [List.getElem?_append_left b.len]

theorem proc_add' {d : Doc} (h : procIdx < d.objs.length) (o : Obj) : (d.add o).proc = d.proc := by
  unfold Doc.proc Doc.add
  simp only []
  rw [List.getElem?_append_left h]

theorem proc_upd_ne (d : Doc) {i : Nat} (h : i ≠ procIdx) (f : Obj → Obj) : (d.upd i f).proc = d.proc := by
  unfold Doc.proc Doc.upd
  simp [h]

/-- An update that does not touch resource objects. -/
theorem proc_upd_id (d : Doc) (i : Nat) (f : Obj → Obj) (hf : ∀ a b c e, f (.procset a b c e) = .procset a b c e)
    (b : Base d) : (d.upd i f).proc = d.proc := by
  by_cases h : i = procIdx
  · subst h
    obtain ⟨fs, cs, xs, gs, hp⟩ := proc_some b
    have hp' := hp
    unfold Doc.proc at hp ⊢
    simp only [Doc.upd, List.getElem?_modify_eq]
    rw [hp]; simp [hf]
  · exact proc_upd_ne d h f

theorem proc_upd_eq (d : Doc) (f : Obj → Obj) : (d.upd procIdx f).proc = d.proc.map f := by
  unfold Doc.proc Doc.upd
  simp

theorem proc_prepare {d : Doc} (b : Base d) : d.prepare.proc = d.proc := by
  obtain ⟨fs, cs, xs, gs, hp⟩ := proc_some b
  rw [hp]
  exact prepare_get (plain_procset _ _ _ _) rfl hp

theorem proc_getContent {d : Doc} (b : Base d) : d.getContent.1.proc = d.proc := by
  unfold Doc.proc
  rw [getContent_objs, List.getElem?_append_left b.len]

theorem proc_addOutline {d : Doc} (b : Base d) (t : Nat) : (d.addOutline t).proc = d.proc := by
  have b1 : Base (d.add (.outline t d.curPageId 2 (d.lastOutline.map (· + 1)) none)) :=
    b.ext (Ext.add d _) rfl rfl rfl rfl rfl rfl rfl rfl rfl rfl
  have e1 := proc_add b (.outline t d.curPageId 2 (d.lastOutline.map (· + 1)) none)
  unfold Doc.addOutline
  simp only []
  generalize d.add (.outline t d.curPageId 2 (d.lastOutline.map (· + 1)) none) = d1 at *
  have e2 := proc_upd_id d1 outlinesIdx (Obj.addOutlineId (d.objs.length + 1)) (fun _ _ _ _ => rfl) b1
  have b2 : Base (d1.upd outlinesIdx (Obj.addOutlineId (d.objs.length + 1))) :=
    b1.ext (Ext.upd d1 _ _ (Obj.ident_addOutlineId _)) rfl rfl rfl rfl rfl rfl rfl rfl rfl rfl
  generalize d1.upd outlinesIdx (Obj.addOutlineId (d.objs.length + 1)) = d2 at *
  split
  · show d2.proc = _
    rw [e2, e1]
  · next j _ =>
    show (d2.upd j (Obj.setNext (d.objs.length + 1))).proc = _
    rw [proc_upd_id d2 j _ (fun _ _ _ _ => rfl) b2, e2, e1]

/-- `d'` has the same resources and caches as `d`. -/
structure Fr (d d' : Doc) : Prop where
  proc : d'.proc = d.proc
  imgs : d'.imgs = d.imgs
  gss : d'.gss = d.gss
  trs : d'.trs = d.trs
  csCount : d'.csCount = d.csCount
  fontCount : d'.fontCount = d.fontCount
  ext : Ext d d'

/-- The resource dictionary agrees with the caches and its names are numbered without repetition. -/
structure ResOK (d : Doc) : Prop where
  xobjs : d.relXobjs = d.imgs.map (·.2)
  imgKeys : (d.imgs.map (·.1)).Nodup
  gs : d.relGSs = d.gss.map (·.2)
  gsKeys : (d.gss.map (·.1)).Nodup
  trKeys : (d.trs.map (·.1)).Nodup
  csCount : d.relCSs.map (·.count) = List.range d.csCount
  csNames : (d.relCSs.map (·.name)).Nodup
  csObj : ∀ r ∈ d.relCSs, d.idents[r.index]? = some (.colorSpace r.name r.count)
  fontCount : d.relFonts.map (·.count) = List.range d.fontCount
  fontKeys : (d.relFonts.map (fun r => (r.family, r.style))).Nodup
  fontObj : ∀ r ∈ d.relFonts, ∃ s c u, d.idents[r.index]? = some (.font r.family s r.count c u) ∧ noUnderline s = r.style

theorem ResOK.frame {d d' : Doc} (h : ResOK d) (f : Fr d d') : ResOK d' := by
  obtain ⟨r1, r2, r3, r4⟩ := rel_congr f.proc
  constructor
  · rw [r3, f.imgs]; exact h.xobjs
  · rw [f.imgs]; exact h.imgKeys
  · rw [r4, f.gss]; exact h.gs
  · rw [f.gss]; exact h.gsKeys
  · rw [f.trs]; exact h.trKeys
  · rw [r2, f.csCount]; exact h.csCount
  · rw [r2]; exact h.csNames
  · rw [r2]; intro r hr; exact prefix_get f.ext (h.csObj r hr)
  · rw [r1, f.fontCount]; exact h.fontCount
  · rw [r1]; exact h.fontKeys
  · rw [r1]
    intro r hr
    obtain ⟨s, c, u, h1, h2⟩ := h.fontObj r hr
    exact ⟨s, c, u, prefix_get f.ext h1, h2⟩

theorem nodup_snoc {α : Type} {l : List α} {x : α} (h : l.Nodup) (hx : x ∉ l) : (l ++ [x]).Nodup := by
  rw [List.nodup_append]
  refine ⟨h, by simp, ?_⟩
  intro a ha b hb
  simp at hb; subst hb
  intro e; subst e; exact hx ha

theorem Fr.add {d : Doc} (b : Base d) (o : Obj) : Fr d (d.add o) :=
  ⟨proc_add b o, rfl, rfl, rfl, rfl, rfl, Ext.add d o⟩

theorem setFont_fields (d : Doc) (f s : Nat) : (d.setFont f s).1 = { d with curFont := (d.setFont f s).1.curFont } := by
  unfold Doc.setFont; split <;> rfl
theorem setPage_fields (d : Doc) (k : Nat) : (d.setPage k).1 = { d with content := (d.setPage k).1.content } := by
  unfold Doc.setPage; split <;> rfl
theorem addLink_fields (d : Doc) (a : Option Nat) : (d.addLink a).1 = { d with objs := (d.addLink a).1.objs } := by
  unfold Doc.addLink; split <;> rfl
theorem addOutline_fields (d : Doc) (t : Nat) : d.addOutline t = { d with
    objs := (d.addOutline t).objs, lastOutline := some d.objs.length } := by
  unfold Doc.addOutline; simp only []; split <;> rfl

theorem Fr.addOutline {d : Doc} (b : Base d) (t : Nat) : Fr d (d.addOutline t) :=
  ⟨proc_addOutline b t, by rw [addOutline_fields], by rw [addOutline_fields], by rw [addOutline_fields],
    by rw [addOutline_fields], by rw [addOutline_fields], Ext.addOutline d t⟩

theorem Fr.prepare {d : Doc} (b : Base d) : Fr d d.prepare :=
  ⟨proc_prepare b, by rw [prepare_fields], by rw [prepare_fields], by rw [prepare_fields],
    by rw [prepare_fields], by rw [prepare_fields], Ext.of_append (prepare_idents d)⟩

theorem Fr.addLink {d : Doc} (b : Base d) (a : Option Nat) : Fr d (d.addLink a).1 := by
  refine ⟨?_, by rw [addLink_fields], by rw [addLink_fields], by rw [addLink_fields],
    by rw [addLink_fields], by rw [addLink_fields], Ext.addLink d a⟩
  unfold Doc.addLink
  split
  · rfl
  · next p _ =>
    show (Doc.upd _ p _).proc = _
    rw [proc_upd_id _ p _ (fun _ _ _ _ => rfl) (b.ext (Ext.add d _) rfl rfl rfl rfl rfl rfl rfl rfl rfl rfl), proc_add b]

theorem Fr.softMask {d : Doc} (b : Base d) (g : Nat) : Fr d (d.softMask g).1 := by
  unfold Doc.softMask
  split
  · exact ⟨rfl, rfl, rfl, rfl, rfl, rfl, Ext.refl d⟩
  · exact ⟨proc_add b _, rfl, rfl, rfl, rfl, rfl, Ext.add d _⟩

theorem Fr.getContent {d : Doc} (b : Base d) : Fr d d.getContent.1 :=
  ⟨proc_getContent b, by rw [getContent_fields], by rw [getContent_fields], by rw [getContent_fields],
    by rw [getContent_fields], by rw [getContent_fields], Ext.getContent d⟩

theorem Fr.entry {d : Doc} (b : Base d) (i : Nat) (e : Entry) : Fr d (d.upd i (Obj.addEntry e)) :=
  ⟨proc_upd_id d i _ (fun _ _ _ _ => rfl) b, rfl, rfl, rfl, rfl, rfl, Ext.upd d i _ (Obj.ident_addEntry e)⟩

theorem register_proc {d : Doc} (b : Base d) (id i : Nat) (a x : Bool) :
    (d.register id i a x).proc = d.proc.map (Obj.addXobj i) := by
  have b1 : Base (d.upd procIdx (Obj.addXobj i)) :=
    b.ext (Ext.upd d _ _ (Obj.ident_addXobj _)) rfl rfl rfl rfl rfl rfl rfl rfl rfl rfl
  have e1 : (d.cacheImage id i).proc = d.proc.map (Obj.addXobj i) := proc_upd_eq d _
  have l1 : procIdx < (d.cacheImage id i).objs.length := by
    show procIdx < (d.objs.modify _ _).length
    simp only [List.length_modify]; exact b.len
  have h0 := proc_some b
  -- adding objects and marking the image leaves the resource object alone
  have aux : ∀ (e : Doc) (o : Obj) (f : Obj → Obj), procIdx < e.objs.length →
      (∀ a b c e, f (.procset a b c e) = .procset a b c e) → (∃ a b c g, e.proc = some (.procset a b c g)) →
      ((e.add o).upd i f).proc = e.proc ∧ procIdx < ((e.add o).upd i f).objs.length := by
    intro e o f hl hf he
    constructor
    · by_cases hi : i = procIdx
      · rw [hi, proc_upd_eq, proc_add' hl]
        obtain ⟨a, b, c, g, hp⟩ := he
        rw [hp]; simp [hf]
      · rw [proc_upd_ne _ hi, proc_add' hl]
    · simp only [Doc.upd, Doc.add, List.length_modify, List.length_append]; omega
  have hp1 : ∃ a b c g, (d.cacheImage id i).proc = some (.procset a b c g) := by
    obtain ⟨fs, cs, xs, gs, hp⟩ := h0
    rw [e1, hp]; exact ⟨_, _, _, _, rfl⟩
  obtain ⟨s1, s2⟩ := aux _ .imageSMask (Obj.setSMask (d.cacheImage id i).objs.length) l1 (fun _ _ _ _ => rfl) hp1
  obtain ⟨p1, p2⟩ := aux _ .deviceRGB (Obj.setRGB (d.cacheImage id i).objs.length) l1 (fun _ _ _ _ => rfl) hp1
  unfold Doc.register
  cases a <;> cases x
  · exact e1
  · exact p1.trans e1
  · exact s1.trans e1
  · obtain ⟨q1, q2⟩ := aux ((d.cacheImage id i).addSMaskImage i) .deviceRGB
      (Obj.setRGB ((d.cacheImage id i).addSMaskImage i).objs.length) s2 (fun _ _ _ _ => rfl)
      (by obtain ⟨a, b, c, g, hp⟩ := hp1; exact ⟨a, b, c, g, s1.trans hp⟩)
    exact q1.trans (s1.trans e1)

theorem not_mem_keys {α β : Type} [DecidableEq α] {l : List (α × β)} {k : α} (h : assoc l k = none) :
    k ∉ l.map (·.1) := by
  intro hm
  obtain ⟨p, hp, rfl⟩ := List.mem_map.1 hm
  exact assoc_none h p.2 hp

/-- What registering a font does. -/
theorem addFont_cases (d : Doc) (b : Base d) (f s : Nat) :
    ∃ cnt, (d.addFont f s).idents = d.idents ++ [.unicodeMap, .fontFile, .fontDesc (d.objs.length + 1),
        .cidFont (d.objs.length + 2), .font f s cnt (d.objs.length + 3) d.objs.length] ∧
      ((∃ r ∈ d.relFonts, r.family = f ∧ r.style = noUnderline s) ∧ (d.addFont f s).proc = d.proc ∧ cnt = 0 ∧
          d.addFont f s = { d with objs := (d.addFont f s).objs } ∨
       (∀ r ∈ d.relFonts, ¬ (r.family = f ∧ r.style = noUnderline s)) ∧ cnt = d.fontCount ∧
          (d.addFont f s).relFonts = d.relFonts ++ [⟨f, noUnderline s, cnt, d.objs.length + 4⟩] ∧
          (d.addFont f s).relCSs = d.relCSs ∧ (d.addFont f s).relXobjs = d.relXobjs ∧
          (d.addFont f s).relGSs = d.relGSs ∧
          d.addFont f s = { d with objs := (d.addFont f s).objs, fontCount := d.fontCount + 1 }) := by
  have hproc : ∀ cnt, (((((d.add .unicodeMap).add .fontFile).add (.fontDesc (d.objs.length + 1))).add
      (.cidFont (d.objs.length + 2))).add (.font f s cnt (d.objs.length + 3) d.objs.length)).proc = d.proc := by
    intro cnt
    have hl : ∀ (e : Doc) (o : Obj), procIdx < e.objs.length → procIdx < (e.add o).objs.length := by
      intro e o h; simp only [Doc.add, List.length_append]; omega
    have l0 := b.len
    have l1 := hl d .unicodeMap l0
    have l2 := hl _ .fontFile l1
    have l3 := hl _ (.fontDesc (d.objs.length + 1)) l2
    have l4 := hl _ (.cidFont (d.objs.length + 2)) l3
    rw [proc_add' l4, proc_add' l3, proc_add' l2, proc_add' l1, proc_add' l0]
  have hid : ∀ cnt, (((((d.add .unicodeMap).add .fontFile).add (.fontDesc (d.objs.length + 1))).add
      (.cidFont (d.objs.length + 2))).add (.font f s cnt (d.objs.length + 3) d.objs.length)).idents =
      d.idents ++ [.unicodeMap, .fontFile, .fontDesc (d.objs.length + 1),
        .cidFont (d.objs.length + 2), .font f s cnt (d.objs.length + 3) d.objs.length] := by
    intro cnt
    simp [idents_add, Obj.ident]
  by_cases hn : d.relFonts.any (fun r => r.family = f ∧ r.style = noUnderline s) = true
  · refine ⟨0, ?_, Or.inl ⟨?_, ?_, rfl, ?_⟩⟩
    · simp only [Doc.addFont, hn]; exact hid 0
    · obtain ⟨r, h1, h2⟩ := List.any_eq_true.1 hn
      exact ⟨r, h1, by simpa using h2⟩
    · simp only [Doc.addFont, hn]; exact hproc 0
    · simp only [Doc.addFont, hn]; rfl
  · have hn' : d.relFonts.any (fun r => r.family = f ∧ r.style = noUnderline s) = false := by simpa using hn
    have hp : (d.addFont f s).proc = some (.procset
        (d.relFonts ++ [⟨f, noUnderline s, d.fontCount, d.objs.length + 4⟩]) d.relCSs d.relXobjs d.relGSs) := by
      simp only [Doc.addFont, hn']
      show (Doc.upd _ procIdx _).proc = _
      rw [proc_upd_eq]
      simp only [Bool.not_false, if_true]
      rw [hproc, proc_eq b]; rfl
    obtain ⟨e1, e2, e3, e4⟩ := rel_of_proc hp
    refine ⟨d.fontCount, ?_, Or.inr ⟨?_, rfl, e1, e2, e3, e4, ?_⟩⟩
    · simp only [Doc.addFont, hn']
      show (Doc.upd _ procIdx _).idents = _
      rw [idents_upd _ _ _ (Obj.ident_addFontRel _)]
      exact hid _
    · intro r hr hc
      exact hn (List.any_eq_true.2 ⟨r, hr, by simpa using hc⟩)
    · simp only [Doc.addFont, hn']; rfl

/-- What registering a colour space does. -/
theorem addColorSpace_cases (d : Doc) (b : Base d) (n : Nat) :
    ((∃ r ∈ d.relCSs, r.name = n) ∧ d.addColorSpace n = (d.add (.colorSpace n 0), .err)) ∨
    ((∀ r ∈ d.relCSs, r.name ≠ n) ∧ (d.addColorSpace n).2 = .ok ∧
      (d.addColorSpace n).1.idents = d.idents ++ [.colorSpace n d.csCount] ∧
      (d.addColorSpace n).1.relCSs = d.relCSs ++ [⟨n, d.csCount, d.objs.length⟩] ∧
      (d.addColorSpace n).1.relFonts = d.relFonts ∧ (d.addColorSpace n).1.relXobjs = d.relXobjs ∧
      (d.addColorSpace n).1.relGSs = d.relGSs ∧
      (d.addColorSpace n).1 = { d with objs := (d.addColorSpace n).1.objs, csCount := d.csCount + 1 }) := by
  by_cases hn : d.relCSs.any (fun r => r.name = n) = true
  · left
    constructor
    · obtain ⟨r, h1, h2⟩ := List.any_eq_true.1 hn
      exact ⟨r, h1, by simpa using h2⟩
    · simp only [Doc.addColorSpace, hn, if_true]
  · right
    have hp : (d.addColorSpace n).1.proc = some (.procset d.relFonts (d.relCSs ++ [⟨n, d.csCount, d.objs.length⟩])
        d.relXobjs d.relGSs) := by
      simp only [Doc.addColorSpace, hn]
      show (Doc.upd _ procIdx _).proc = _
      rw [proc_upd_eq, proc_add b, proc_eq b]; rfl
    obtain ⟨e1, e2, e3, e4⟩ := rel_of_proc hp
    refine ⟨?_, ?_, ?_, e2, e1, e3, e4, ?_⟩
    · intro r hr hc
      exact hn (List.any_eq_true.2 ⟨r, hr, by simpa using hc⟩)
    · simp only [Doc.addColorSpace, hn]; rfl
    · simp only [Doc.addColorSpace, hn]
      show (Doc.upd _ procIdx _).idents = _
      rw [idents_upd _ _ _ (Obj.ident_addCSRel _), idents_add]; rfl
    · simp only [Doc.addColorSpace, hn]; rfl

theorem ResOK.stable : Stable ResOK where
  addPage := fun d b h => h.frame ⟨proc_add b _, rfl, rfl, rfl, rfl, rfl, step_ext d .addPage⟩
  mkContent := fun d b h _ => h.frame (Fr.getContent b)
  entry := fun d i e b h _ _ => h.frame (Fr.entry b i e)
  newGS := fun d k b h hn _ => by
    have e : (d.extGState k).1 = { (d.add (.extGS k)).upd procIdx (Obj.addGS d.objs.length) with
        gss := d.gss ++ [(k, d.objs.length)] } := by
      simp [Doc.extGState, hn, Doc.add, Doc.upd]
    have hx := Ext.extGState d k
    rw [e] at hx ⊢
    have hp : ({ (d.add (.extGS k)).upd procIdx (Obj.addGS d.objs.length) with
        gss := d.gss ++ [(k, d.objs.length)] } : Doc).proc =
        some (.procset d.relFonts d.relCSs d.relXobjs (d.relGSs ++ [d.objs.length])) := by
      show (Doc.upd _ procIdx _).proc = _
      rw [proc_upd_eq, proc_add b, proc_eq b]; rfl
    obtain ⟨e1, e2, e3, e4⟩ := rel_of_proc hp
    constructor
    · rw [e3]; exact h.xobjs
    · exact h.imgKeys
    · rw [e4]; show _ = (d.gss ++ [(k, d.objs.length)]).map _; rw [List.map_append, h.gs]; rfl
    · show ((d.gss ++ [(k, d.objs.length)]).map _).Nodup
      rw [List.map_append]; exact nodup_snoc h.gsKeys (not_mem_keys hn)
    · exact h.trKeys
    · rw [e2]; exact h.csCount
    · rw [e2]; exact h.csNames
    · rw [e2]; intro r hr; exact prefix_get hx (h.csObj r hr)
    · rw [e1]; exact h.fontCount
    · rw [e1]; exact h.fontKeys
    · rw [e1]
      intro r hr
      obtain ⟨s, c, u, h1, h2⟩ := h.fontObj r hr
      exact ⟨s, c, u, prefix_get hx h1, h2⟩
  newTr := fun d a c i b h hn _ => { h with
    trKeys := by
      show ((d.trs ++ _).map _).Nodup
      rw [List.map_append]; exact nodup_snoc h.trKeys (not_mem_keys hn) }
  setTr := fun d g _ h _ => { h with }
  addImage := fun d id m b h _ => h.frame (Fr.add b _)
  register := fun d id m i b h hn hi => by
    have hx := Ext.register d id i (!m.isMask && m.alpha) (!m.isMask && m.indexed)
    have hf := register_fields d id i (!m.isMask && m.alpha) (!m.isMask && m.indexed)
    have hp := register_proc b id i (!m.isMask && m.alpha) (!m.isMask && m.indexed)
    generalize d.register id i (!m.isMask && m.alpha) (!m.isMask && m.indexed) = r at hx hf hp
    rw [proc_eq b] at hp
    obtain ⟨e1, e2, e3, e4⟩ := rel_of_proc hp
    have f1 : r.imgs = d.imgs ++ [(id, i)] := by rw [hf]
    have f2 : r.gss = d.gss := by rw [hf]
    have f3 : r.trs = d.trs := by rw [hf]
    have f4 : r.csCount = d.csCount := by rw [hf]
    have f5 : r.fontCount = d.fontCount := by rw [hf]
    constructor
    · rw [e3, f1, List.map_append, h.xobjs]; rfl
    · rw [f1, List.map_append]; exact nodup_snoc h.imgKeys (not_mem_keys hn)
    · rw [e4, f2]; exact h.gs
    · rw [f2]; exact h.gsKeys
    · rw [f3]; exact h.trKeys
    · rw [e2, f4]; exact h.csCount
    · rw [e2]; exact h.csNames
    · rw [e2]; intro r hr; exact prefix_get hx (h.csObj r hr)
    · rw [e1, f5]; exact h.fontCount
    · rw [e1]; exact h.fontKeys
    · rw [e1]
      intro r hr
      obtain ⟨s, c, u, h1, h2⟩ := h.fontObj r hr
      exact ⟨s, c, u, prefix_get hx h1, h2⟩
  group := fun d e b h _ => h.frame (Fr.add b _)
  softMask := fun d g b h _ _ => h.frame (Fr.softMask b g)
  addFont := fun d f s b h => by
    have hx := Ext.addFont d f s
    obtain ⟨cnt, hid, ⟨_, hp, hc0, hf⟩ | ⟨hnew, rfl, e1, e2, e3, e4, hf⟩⟩ := addFont_cases d b f s
    · exact h.frame ⟨hp, by rw [hf], by rw [hf], by rw [hf], by rw [hf], by rw [hf], hx⟩
    · have f1 : (d.addFont f s).imgs = d.imgs := by rw [hf]
      have f2 : (d.addFont f s).gss = d.gss := by rw [hf]
      have f3 : (d.addFont f s).trs = d.trs := by rw [hf]
      have f4 : (d.addFont f s).csCount = d.csCount := by rw [hf]
      have f5 : (d.addFont f s).fontCount = d.fontCount + 1 := by rw [hf]
      constructor
      · rw [e3, f1]; exact h.xobjs
      · rw [f1]; exact h.imgKeys
      · rw [e4, f2]; exact h.gs
      · rw [f2]; exact h.gsKeys
      · rw [f3]; exact h.trKeys
      · rw [e2, f4]; exact h.csCount
      · rw [e2]; exact h.csNames
      · rw [e2]; intro r hr; exact prefix_get hx (h.csObj r hr)
      · rw [e1, f5, List.map_append, h.fontCount, List.range_succ]; rfl
      · rw [e1, List.map_append]
        refine nodup_snoc h.fontKeys ?_
        intro hm
        obtain ⟨r, hr, he⟩ := List.mem_map.1 hm
        simp at he
        exact hnew r hr he
      · rw [e1]
        intro r hr
        rcases List.mem_append.1 hr with hr | hr
        · obtain ⟨s, c, u, h1, h2⟩ := h.fontObj r hr
          exact ⟨s, c, u, prefix_get hx h1, h2⟩
        · simp at hr; subst hr
          refine ⟨s, d.objs.length + 3, d.objs.length, ?_, rfl⟩
          rw [hid, List.getElem?_append_right (by rw [idents_len]; simp)]
          simp [idents_len]
  setFont := fun d f s b h => h.frame (by rw [setFont_fields]; exact ⟨rfl, rfl, rfl, rfl, rfl, rfl, Ext.refl _⟩)
  addColorSpace := fun d n b h => by
    have hx := Ext.addColorSpace d n
    rcases addColorSpace_cases d b n with ⟨_, e⟩ | ⟨hnew, _, hid, e2, e1, e3, e4, hf⟩
    · rw [e]; exact h.frame (Fr.add b _)
    · generalize (d.addColorSpace n).1 = r at *
      have f1 : r.imgs = d.imgs := by rw [hf]
      have f2 : r.gss = d.gss := by rw [hf]
      have f3 : r.trs = d.trs := by rw [hf]
      have f4 : r.csCount = d.csCount + 1 := by rw [hf]
      have f5 : r.fontCount = d.fontCount := by rw [hf]
      constructor
      · rw [e3, f1]; exact h.xobjs
      · rw [f1]; exact h.imgKeys
      · rw [e4, f2]; exact h.gs
      · rw [f2]; exact h.gsKeys
      · rw [f3]; exact h.trKeys
      · rw [e2, f4, List.map_append, h.csCount, List.range_succ]; rfl
      · rw [e2, List.map_append]
        refine nodup_snoc h.csNames ?_
        intro hm
        obtain ⟨r, hr, he⟩ := List.mem_map.1 hm
        exact hnew r hr he
      · rw [e2]
        intro r hr
        rcases List.mem_append.1 hr with hr | hr
        · exact prefix_get hx (h.csObj r hr)
        · simp at hr; subst hr
          rw [hid]; simp [← idents_len d]
      · rw [e1, f5]; exact h.fontCount
      · rw [e1]; exact h.fontKeys
      · rw [e1]
        intro r hr
        obtain ⟨s, c, u, h1, h2⟩ := h.fontObj r hr
        exact ⟨s, c, u, prefix_get hx h1, h2⟩
  addLink := fun d a b h => h.frame (Fr.addLink b a)
  setAnchor := fun d n y b h => { h with }
  addOutline := fun d t b h => h.frame (Fr.addOutline b t)
  imported := fun d b h => h.frame (Fr.add b _)
  setPage := fun d k b h => h.frame (by rw [setPage_fields]; exact ⟨rfl, rfl, rfl, rfl, rfl, rfl, Ext.refl _⟩)
  prepare := fun d b h => h.frame (Fr.prepare b)

theorem ResOK.start (p : Bool) : ResOK (start p) := by
  constructor <;> simp [Doc.start, Doc.relXobjs, Doc.relGSs, Doc.relCSs, Doc.relFonts, procIdx]

theorem reachable_res {d : Doc} (h : Reachable d) : ResOK d := (reachable_of_stable ResOK.stable ResOK.start h).2

end Verif.Doc
