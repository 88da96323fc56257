import Verif.Lemmas.Doc.Res
/- Images are complete once registered; the first colour space / font of a name is the registered one; every resource
name used in a stream is defined. -/
namespace Verif.Doc

/-! ### Images -/

def ImgDone (d : Doc) : Prop := ∀ id i, (id, i) ∈ d.imgs → ∃ m s r, d.objs[i]? = some (.image id m s r) ∧
  (m.isMask = false → (m.alpha = true → s ≠ none) ∧ (m.indexed = true → r ≠ none))

def KeepImg (d d' : Doc) : Prop := ∀ (i : Nat) id m s r, d.objs[i]? = some (.image id m s r) →
  d'.objs[i]? = some (.image id m s r)

theorem ImgDone.frame {d d' : Doc} (h : ImgDone d) (hi : d'.imgs = d.imgs) (hk : KeepImg d d') : ImgDone d' := by
  intro id i hm
  rw [hi] at hm
  obtain ⟨m, s, r, h1, h2⟩ := h id i hm
  exact ⟨m, s, r, hk i id m s r h1, h2⟩

theorem KeepImg.refl (d : Doc) : KeepImg d d := fun _ _ _ _ _ h => h
theorem KeepImg.of_objs {d d' : Doc} (h : d'.objs = d.objs) : KeepImg d d' := fun _ _ _ _ _ hi => h ▸ hi
theorem KeepImg.trans {a b c : Doc} (h : KeepImg a b) (h' : KeepImg b c) : KeepImg a c :=
  fun i id m s r hi => h' i id m s r (h i id m s r hi)
theorem KeepImg.add (d : Doc) (o : Obj) : KeepImg d (d.add o) := fun i id m s r hi => by
  simp only [Doc.add]; rw [List.getElem?_append_left (lt_of_get hi)]; exact hi
theorem KeepImg.upd (d : Doc) (j : Nat) (f : Obj → Obj) (hf : ∀ id m s r, f (.image id m s r) = .image id m s r) :
    KeepImg d (d.upd j f) := fun i id m s r hi => by
  simp only [Doc.upd, List.getElem?_modify, hi]
  by_cases h : j = i <;> simp [h, hf]
theorem KeepImg.getContent (d : Doc) : KeepImg d d.getContent.1 := by
  intro i id m s r hi
  rw [getContent_objs, List.getElem?_append_left (lt_of_get hi)]; exact hi
theorem KeepImg.prepare (d : Doc) : KeepImg d d.prepare :=
  fun i id m s r hi => prepare_get (plain_image id m s r) rfl hi

theorem upd_img {d : Doc} {i j : Nat} {id m s r} (f : Obj → Obj) (hj : d.objs[i]? = some (.image id m s r)) (h : j ≠ i) :
    (d.upd j f).objs[i]? = some (.image id m s r) := by
  simp [Doc.upd, h, hj]

theorem ImgDone.stable : Stable ImgDone where
  addPage := fun d b h => h.frame rfl (KeepImg.add d _)
  mkContent := fun d b h _ => h.frame (by rw [getContent_fields]) (KeepImg.getContent d)
  entry := fun d i e b h _ _ => h.frame rfl (KeepImg.upd d i _ (fun _ _ _ _ => rfl))
  newGS := fun d k b h hn _ => by
    unfold Doc.extGState
    rw [hn]
    exact h.frame rfl ((KeepImg.add d _).trans (KeepImg.upd _ procIdx _ (fun _ _ _ _ => rfl)))
  newTr := fun d _ _ _ _ h _ _ => h
  setTr := fun d _ _ h _ => h
  addImage := fun d _ _ _ h _ => h.frame rfl (KeepImg.add d _)
  register := fun d id m i b h hn hi => by
    have hf := register_fields d id i (!m.isMask && m.alpha) (!m.isMask && m.indexed)
    -- images other than `i` keep their object
    have hother : ∀ (j : Nat) id' m' s r, j ≠ i → d.objs[j]? = some (.image id' m' s r) →
        (d.register id i (!m.isMask && m.alpha) (!m.isMask && m.indexed)).objs[j]? = some (.image id' m' s r) := by
      intro j id' m' s r hne hj
      have c0 : (d.cacheImage id i).objs[j]? = some (.image id' m' s r) :=
        KeepImg.upd d procIdx (Obj.addXobj i) (fun _ _ _ _ => rfl) j id' m' s r hj
      have st : ∀ (e : Doc) (o : Obj) (f : Obj → Obj), e.objs[j]? = some (.image id' m' s r) →
          ((e.add o).upd i f).objs[j]? = some (.image id' m' s r) := fun e o f he =>
        upd_img f (KeepImg.add e o j id' m' s r he) (Ne.symm hne)
      unfold Doc.register
      simp only []
      split <;> split
      · exact st _ _ _ (st _ _ _ c0)
      · exact st _ _ _ c0
      · exact st _ _ _ c0
      · exact c0
    have hself : ∃ s r, (d.register id i (!m.isMask && m.alpha) (!m.isMask && m.indexed)).objs[i]? =
        some (.image id m s r) ∧ (m.isMask = false → (m.alpha = true → s ≠ none) ∧ (m.indexed = true → r ≠ none)) := by
      have c0 : (d.cacheImage id i).objs[i]? = some (.image id m none none) :=
        KeepImg.upd d procIdx (Obj.addXobj i) (fun _ _ _ _ => rfl) i id m none none hi
      have s1 : ∀ (e : Doc) s r, e.objs[i]? = some (.image id m s r) →
          (e.addSMaskImage i).objs[i]? = some (.image id m (some e.objs.length) r) := by
        intro e s r he
        have := KeepImg.add e .imageSMask i id m s r he
        simp only [Doc.addSMaskImage, Doc.upd, List.getElem?_modify_eq, this]; rfl
      have s2 : ∀ (e : Doc) s r, e.objs[i]? = some (.image id m s r) →
          (e.addPalette i).objs[i]? = some (.image id m s (some e.objs.length)) := by
        intro e s r he
        have := KeepImg.add e .deviceRGB i id m s r he
        simp only [Doc.addPalette, Doc.upd, List.getElem?_modify_eq, this]; rfl
      unfold Doc.register
      simp only []
      cases hm : m.isMask <;> cases ha : m.alpha <;> cases hx : m.indexed <;>
        simp only [Bool.not_false, Bool.not_true, Bool.true_and, Bool.false_and, if_true, if_false, Bool.and_true, Bool.and_false]
      · exact ⟨none, none, c0, by simp⟩
      · exact ⟨none, _, s2 _ _ _ c0, by simp⟩
      · exact ⟨_, none, s1 _ _ _ c0, by simp⟩
      · exact ⟨_, _, s2 _ _ _ (s1 _ _ _ c0), by simp⟩
      all_goals exact ⟨none, none, c0, by simp⟩
    generalize d.register id i (!m.isMask && m.alpha) (!m.isMask && m.indexed) = x at *
    intro id' j hj
    rw [hf] at hj
    rcases List.mem_append.1 hj with h' | h'
    · obtain ⟨m', s, r, h1, h2⟩ := h id' j h'
      have hne : j ≠ i := by
        intro e
        subst e
        rw [hi] at h1
        simp at h1
        obtain ⟨rfl, _⟩ := h1
        exact assoc_none hn _ h'
      exact ⟨m', s, r, hother j id' m' s r hne h1, h2⟩
    · simp at h'
      obtain ⟨rfl, rfl⟩ := h'
      obtain ⟨s, r, h1, h2⟩ := hself
      exact ⟨m, s, r, h1, h2⟩
  group := fun d _ _ h _ => h.frame rfl (KeepImg.add d _)
  softMask := fun d g b h hn _ => by
    unfold Doc.softMask
    rw [hn]
    exact h.frame rfl (KeepImg.add d _)
  addFont := fun d f s b h => by
    have k : KeepImg d (d.addFont f s) := by
      unfold Doc.addFont
      simp only []
      have k1 := KeepImg.add d .unicodeMap
      have k2 := k1.trans (KeepImg.add _ .fontFile)
      have k3 := k2.trans (KeepImg.add _ (.fontDesc (d.objs.length + 1)))
      have k4 := k3.trans (KeepImg.add _ (.cidFont (d.objs.length + 2)))
      split
      · exact (k4.trans (KeepImg.add _ _)).trans (KeepImg.upd _ procIdx _ (fun _ _ _ _ => rfl))
      · exact k4.trans (KeepImg.add _ _)
    refine h.frame ?_ k
    unfold Doc.addFont; simp only []; split <;> rfl
  setFont := fun d f s b h => h.frame (by rw [setFont_fields]) (KeepImg.of_objs (by rw [setFont_fields]))
  addColorSpace := fun d n b h => by
    unfold Doc.addColorSpace
    simp only []
    split
    · exact h.frame rfl (KeepImg.add d _)
    · exact h.frame rfl ((KeepImg.add d _).trans (KeepImg.upd _ procIdx _ (fun _ _ _ _ => rfl)))
  addLink := fun d a b h => by
    unfold Doc.addLink
    split
    · exact h
    · next p _ => exact h.frame rfl ((KeepImg.add d _).trans (KeepImg.upd _ p _ (fun _ _ _ _ => rfl)))
  setAnchor := fun d _ _ _ h => h
  addOutline := fun d t b h => by
    refine h.frame (by rw [addOutline_fields]) ?_
    unfold Doc.addOutline
    simp only []
    have k := (KeepImg.add d (.outline t d.curPageId 2 (d.lastOutline.map (· + 1)) none)).trans
      (KeepImg.upd _ outlinesIdx (Obj.addOutlineId (d.objs.length + 1)) (fun _ _ _ _ => rfl))
    split
    · exact k
    · next j _ => exact k.trans (KeepImg.upd _ j (Obj.setNext (d.objs.length + 1)) (fun _ _ _ _ => rfl))
  imported := fun d _ h => h.frame rfl (KeepImg.add d _)
  setPage := fun d k b h => h.frame (by rw [setPage_fields]) (KeepImg.of_objs (by rw [setPage_fields]))
  prepare := fun d b h => h.frame (by rw [prepare_fields]) (KeepImg.prepare d)

theorem reachable_imgs {d : Doc} (h : Reachable d) : ImgDone d :=
  (reachable_of_stable ImgDone.stable (fun p => by intro id i hm; simp [start] at hm) h).2

/-! ### The first colour space and the first font of a name -/

/-- No font object was registered with the underline bit in its style. -/
def NoUL (d : Doc) : Prop := ∀ (i : Nat) f s c cid uni, d.idents[i]? = some (.font f s c cid uni) → noUnderline s = s

/-- `d'` adds no fonts and no colour spaces. -/
def NoNew (d d' : Doc) : Prop := ∃ l, d'.idents = d.idents ++ l ∧ ∀ o ∈ l, o.kind ≠ .font ∧ o.kind ≠ .colorSpace

theorem NoNew.refl (d : Doc) : NoNew d d := ⟨[], by simp, by simp⟩
theorem NoNew.of_objs {d d' : Doc} (h : d'.objs = d.objs) : NoNew d d' := ⟨[], by simp [Doc.idents, h], by simp⟩
theorem NoNew.trans {a b c : Doc} (h : NoNew a b) (h' : NoNew b c) : NoNew a c := by
  obtain ⟨l, e, hl⟩ := h
  obtain ⟨l', e', hl'⟩ := h'
  refine ⟨l ++ l', by rw [e', e, List.append_assoc], ?_⟩
  intro o ho
  rcases List.mem_append.1 ho with h | h
  · exact hl o h
  · exact hl' o h
theorem NoNew.add (d : Doc) (o : Obj) (h : o.kind ≠ .font ∧ o.kind ≠ .colorSpace) : NoNew d (d.add o) :=
  ⟨[o.ident], idents_add d o, by simp [kind_ident, h]⟩
theorem NoNew.upd (d : Doc) (i : Nat) (f : Obj → Obj) (h : ∀ o, (f o).ident = o.ident) : NoNew d (d.upd i f) :=
  ⟨[], by rw [idents_upd d i f h]; simp, by simp⟩

structure First (d : Doc) : Prop where
  cs : ∀ (i : Nat) name c, d.idents[i]? = some (.colorSpace name c) →
    (∀ j c', j < i → d.idents[j]? ≠ some (.colorSpace name c')) → ⟨name, c, i⟩ ∈ d.relCSs
  font : NoUL d → ∀ (i : Nat) f s c cid uni, d.idents[i]? = some (.font f s c cid uni) →
    (∀ j c' cid' uni', j < i → d.idents[j]? ≠ some (.font f s c' cid' uni')) → ⟨f, s, c, i⟩ ∈ d.relFonts

theorem NoUL.ext {d d' : Doc} (hx : Ext d d') (h : NoUL d') : NoUL d :=
  fun i f s c cid uni hi => h i f s c cid uni (prefix_get hx hi)

/-- An object of `d'` that is not new. -/
theorem get_old {l l' : List Obj} {i : Nat} {o : Obj} (h : (l ++ l')[i]? = some o) (hn : ∀ x ∈ l', x ≠ o) : l[i]? = some o := by
  rcases Nat.lt_or_ge i l.length with hi | hi
  · rw [List.getElem?_append_left hi] at h; exact h
  · rw [List.getElem?_append_right hi] at h
    exact absurd rfl (hn o (List.mem_of_getElem? h))

theorem First.frame {d d' : Doc} (h : First d) (hn : NoNew d d') (hc : d'.relCSs = d.relCSs)
    (hf : d'.relFonts = d.relFonts) : First d' := by
  obtain ⟨l, e, hl⟩ := hn
  have hx : Ext d d' := ⟨l, e.symm⟩
  constructor
  · intro i name c hi hno
    rw [e] at hi
    have hi' := get_old hi (fun x hx he => (hl x hx).2 (by rw [he]; rfl))
    rw [hc]
    exact h.cs i name c hi' (fun j c' hj hj' => hno j c' hj (prefix_get hx hj'))
  · intro hu i f s c cid uni hi hno
    rw [e] at hi
    have hi' := get_old hi (fun x hx he => (hl x hx).1 (by rw [he]; rfl))
    rw [hf]
    exact h.font (hu.ext hx) i f s c cid uni hi' (fun j c' a b hj hj' => hno j c' a b hj (prefix_get hx hj'))

theorem NoNew.getContent (d : Doc) : NoNew d d.getContent.1 := by
  refine ⟨_, idents_getContent d, ?_⟩
  intro o ho
  split at ho
  · simp at ho; subst ho; simp [Obj.kind]
  · simp at ho

theorem NoNew.register (d : Doc) (id i : Nat) (a x : Bool) : NoNew d (d.register id i a x) := by
  have c0 : NoNew d (d.cacheImage id i) := NoNew.upd d procIdx (Obj.addXobj i) (Obj.ident_addXobj _)
  have s1 : ∀ e : Doc, NoNew e (e.addSMaskImage i) := fun e =>
    (NoNew.add e _ (by simp [Obj.kind])).trans (NoNew.upd _ _ _ (Obj.ident_setSMask _))
  have s2 : ∀ e : Doc, NoNew e (e.addPalette i) := fun e =>
    (NoNew.add e _ (by simp [Obj.kind])).trans (NoNew.upd _ _ _ (Obj.ident_setRGB _))
  unfold Doc.register
  simp only []
  split <;> split
  · exact (c0.trans (s1 _)).trans (s2 _)
  · exact c0.trans (s2 _)
  · exact c0.trans (s1 _)
  · exact c0

theorem NoNew.addOutline (d : Doc) (t : Nat) : NoNew d (d.addOutline t) := by
  unfold Doc.addOutline
  simp only []
  have k := (NoNew.add d (.outline t d.curPageId 2 (d.lastOutline.map (· + 1)) none) (by simp [Obj.kind])).trans
    (NoNew.upd _ outlinesIdx (Obj.addOutlineId (d.objs.length + 1)) (Obj.ident_addOutlineId _))
  split
  · exact k
  · next j _ => exact k.trans (NoNew.upd _ j (Obj.setNext (d.objs.length + 1)) (Obj.ident_setNext _))

theorem NoNew.prepare (d : Doc) : NoNew d d.prepare := by
  refine ⟨_, prepare_idents d, ?_⟩
  intro o ho
  split at ho
  · simp at ho; subst ho; simp [Obj.kind]
  · simp at ho

theorem NoNew.addLink (d : Doc) (a : Option Nat) : NoNew d (d.addLink a).1 := by
  unfold Doc.addLink
  split
  · exact NoNew.refl d
  · next p _ =>
    exact (NoNew.add d _ (by simp [Obj.kind])).trans (NoNew.upd _ p _ (Obj.ident_addLinkId _))

theorem NoNew.softMask (d : Doc) (g : Nat) : NoNew d (d.softMask g).1 := by
  unfold Doc.softMask
  split
  · exact NoNew.refl d
  · exact NoNew.add d _ (by simp [Obj.kind])

theorem NoNew.extGState (d : Doc) (k : GKey) : NoNew d (d.extGState k).1 := by
  unfold Doc.extGState
  split
  · exact NoNew.refl d
  · exact (NoNew.add d _ (by simp [Obj.kind])).trans (NoNew.upd _ procIdx _ (Obj.ident_addGS _))

/-- How the resource dictionaries grow. -/
structure Grow (d d' : Doc) : Prop where
  fonts : d.relFonts <+: d'.relFonts
  css : d.relCSs <+: d'.relCSs
  xobjs : d.relXobjs <+: d'.relXobjs
  gss : d.relGSs <+: d'.relGSs

theorem Grow.of_proc {d d' : Doc} (h : d'.proc = d.proc) : Grow d d' := by
  obtain ⟨r1, r2, r3, r4⟩ := rel_congr h
  exact ⟨by rw [r1]; exact List.prefix_refl _, by rw [r2]; exact List.prefix_refl _,
    by rw [r3]; exact List.prefix_refl _, by rw [r4]; exact List.prefix_refl _⟩

theorem rel_newGS {d : Doc} (b : Base d) {k : GKey} (hn : assoc d.gss k = none) :
    (d.extGState k).1.relFonts = d.relFonts ∧ (d.extGState k).1.relCSs = d.relCSs ∧
    (d.extGState k).1.relXobjs = d.relXobjs ∧ (d.extGState k).1.relGSs = d.relGSs ++ [d.objs.length] := by
  have hp : (d.extGState k).1.proc =
      some (.procset d.relFonts d.relCSs d.relXobjs (d.relGSs ++ [d.objs.length])) := by
    unfold Doc.extGState
    rw [hn]
    show (Doc.upd _ procIdx _).proc = _
    rw [proc_upd_eq, proc_add b, proc_eq b]; rfl
  exact rel_of_proc hp

theorem rel_register {d : Doc} (b : Base d) (id i : Nat) (a x : Bool) :
    (d.register id i a x).relFonts = d.relFonts ∧ (d.register id i a x).relCSs = d.relCSs ∧
    (d.register id i a x).relXobjs = d.relXobjs ++ [i] ∧ (d.register id i a x).relGSs = d.relGSs := by
  have hp := register_proc b id i a x
  rw [proc_eq b] at hp
  exact rel_of_proc hp

/-- The current font is the registered one. -/
def CurFontOK (d : Doc) : Prop := NoUL d → ∀ i c, d.curFont = some (i, c) → ∃ r ∈ d.relFonts, r.index = i ∧ r.count = c

theorem CurFontOK.grow {d d' : Doc} (h : CurFontOK d) (hx : Ext d d') (g : Grow d d') (hc : d'.curFont = d.curFont) :
    CurFontOK d' := by
  intro hu i c hi
  rw [hc] at hi
  obtain ⟨r, h1, h2⟩ := h (hu.ext hx) i c hi
  exact ⟨r, g.fonts.subset h1, h2⟩

/-- An entry's resource names are defined. -/
structure Named (d : Doc) (e : Entry) : Prop where
  gs : ∀ n ∈ e.gs, ∃ i ∈ d.relGSs, n = i + 1
  xobj : ∀ n, e.xobj = some n → ∃ i ∈ d.relXobjs, n = i + 1
  cs : ∀ n, e.cs = some n → ∃ r ∈ d.relCSs, n = r.count + 1
  font : NoUL d → ∀ n, e.font = some n → ∃ r ∈ d.relFonts, n = r.count + 1

theorem Named.grow {d d' : Doc} {e : Entry} (h : Named d e) (hx : Ext d d') (g : Grow d d') : Named d' e where
  gs := fun n hn => let ⟨i, h1, h2⟩ := h.gs n hn; ⟨i, g.gss.subset h1, h2⟩
  xobj := fun n hn => let ⟨i, h1, h2⟩ := h.xobj n hn; ⟨i, g.xobjs.subset h1, h2⟩
  cs := fun n hn => let ⟨i, h1, h2⟩ := h.cs n hn; ⟨i, g.css.subset h1, h2⟩
  font := fun hu n hn => let ⟨i, h1, h2⟩ := h.font (hu.ext hx) n hn; ⟨i, g.fonts.subset h1, h2⟩

/-- The entries of a stream object. -/
def Obj.entries : Obj → List Entry
  | .content es => es
  | .group es => es
  | _ => []

def AllNamed (d : Doc) : Prop := ∀ (i : Nat) o, d.objs[i]? = some o → ∀ e ∈ o.entries, Named d e

/-- Every entry of `d'` is in `d` already. -/
def NoEntry (d d' : Doc) : Prop := ∀ (i : Nat) o', d'.objs[i]? = some o' → ∀ e ∈ o'.entries,
  ∃ o, d.objs[i]? = some o ∧ e ∈ o.entries

theorem NoEntry.refl (d : Doc) : NoEntry d d := fun i o h e he => ⟨o, h, he⟩
theorem NoEntry.of_objs {d d' : Doc} (h : d'.objs = d.objs) : NoEntry d d' := fun i o ho e he => ⟨o, h ▸ ho, he⟩
theorem NoEntry.trans {a b c : Doc} (h : NoEntry a b) (h' : NoEntry b c) : NoEntry a c := by
  intro i o ho e he
  obtain ⟨o1, h1, h2⟩ := h' i o ho e he
  exact h i o1 h1 e h2
theorem NoEntry.add (d : Doc) (o : Obj) (h : o.entries = []) : NoEntry d (d.add o) := by
  intro i o' ho' e he
  simp only [Doc.add] at ho'
  rcases Nat.lt_or_ge i d.objs.length with hi | hi
  · rw [List.getElem?_append_left hi] at ho'; exact ⟨o', ho', he⟩
  · rw [List.getElem?_append_right hi] at ho'
    have := List.mem_of_getElem? ho'
    simp at this; subst this
    rw [h] at he; simp at he
theorem NoEntry.upd (d : Doc) (j : Nat) (f : Obj → Obj) (h : ∀ o, (f o).entries = o.entries) : NoEntry d (d.upd j f) := by
  intro i o' ho' e he
  simp only [Doc.upd, List.getElem?_modify] at ho'
  cases hi : d.objs[i]? with
  | none => rw [hi] at ho'; simp at ho'
  | some o =>
    rw [hi] at ho'
    simp at ho'
    refine ⟨o, rfl, ?_⟩
    split at ho'
    · subst ho'; rw [h] at he; exact he
    · subst ho'; exact he

theorem AllNamed.frame {d d' : Doc} (h : AllNamed d) (hn : NoEntry d d') (hx : Ext d d') (g : Grow d d') : AllNamed d' := by
  intro i o ho e he
  obtain ⟨o', h1, h2⟩ := hn i o ho e he
  exact (h i o' h1 e h2).grow hx g

theorem entries_keep (o : Obj) : (keep o).entries = o.entries := by cases o <;> rfl

theorem NoEntry.prepare (d : Doc) : NoEntry d d.prepare := by
  intro i o ho e he
  have h1 := prepare_keep d
  have h2 : (d.prepare.objs.map keep)[i]? = some (keep o) := by rw [List.getElem?_map, ho]; rfl
  rw [h1, List.getElem?_map] at h2
  rcases Nat.lt_or_ge i d.objs.length with hi | hi
  · rw [List.getElem?_append_left hi] at h2
    cases hx : d.objs[i]? with
    | none => rw [hx] at h2; simp at h2
    | some x =>
      rw [hx] at h2; simp at h2
      refine ⟨x, rfl, ?_⟩
      rw [← entries_keep, h2, entries_keep]; exact he
  · rw [List.getElem?_append_right hi] at h2
    cases hx : (if d.prot = true then [Obj.encryption] else [])[i - d.objs.length]? with
    | none => rw [hx] at h2; simp at h2
    | some x =>
      rw [hx] at h2; simp at h2
      have hm := List.mem_of_getElem? hx
      split at hm
      · simp at hm; subst hm
        rw [← entries_keep, ← h2] at he
        simp [keep, Obj.entries] at he
      · simp at hm

theorem NoEntry.register (d : Doc) (id i : Nat) (a x : Bool) : NoEntry d (d.register id i a x) := by
  have c0 : NoEntry d (d.cacheImage id i) := NoEntry.upd d procIdx (Obj.addXobj i) (fun o => by cases o <;> rfl)
  have s1 : ∀ e : Doc, NoEntry e (e.addSMaskImage i) := fun e =>
    (NoEntry.add e _ rfl).trans (NoEntry.upd _ _ _ (fun o => by cases o <;> rfl))
  have s2 : ∀ e : Doc, NoEntry e (e.addPalette i) := fun e =>
    (NoEntry.add e _ rfl).trans (NoEntry.upd _ _ _ (fun o => by cases o <;> rfl))
  unfold Doc.register
  simp only []
  split <;> split
  · exact (c0.trans (s1 _)).trans (s2 _)
  · exact c0.trans (s2 _)
  · exact c0.trans (s1 _)
  · exact c0

theorem NoEntry.addOutline (d : Doc) (t : Nat) : NoEntry d (d.addOutline t) := by
  unfold Doc.addOutline
  simp only []
  have k := (NoEntry.add d (.outline t d.curPageId 2 (d.lastOutline.map (· + 1)) none) rfl).trans
    (NoEntry.upd _ outlinesIdx (Obj.addOutlineId (d.objs.length + 1)) (fun o => by cases o <;> rfl))
  split
  · exact k
  · next j _ => exact k.trans (NoEntry.upd _ j (Obj.setNext (d.objs.length + 1)) (fun o => by cases o <;> rfl))

theorem NoEntry.addFont (d : Doc) (f s : Nat) : NoEntry d (d.addFont f s) := by
  unfold Doc.addFont
  simp only []
  have k1 := NoEntry.add d .unicodeMap rfl
  have k2 := k1.trans (NoEntry.add _ .fontFile rfl)
  have k3 := k2.trans (NoEntry.add _ (.fontDesc (d.objs.length + 1)) rfl)
  have k4 := k3.trans (NoEntry.add _ (.cidFont (d.objs.length + 2)) rfl)
  split
  · exact (k4.trans (NoEntry.add _ _ rfl)).trans (NoEntry.upd _ procIdx _ (fun o => by cases o <;> rfl))
  · exact k4.trans (NoEntry.add _ _ rfl)

theorem NoEntry.getContent (d : Doc) : NoEntry d d.getContent.1 := by
  unfold Doc.getContent
  split
  · exact NoEntry.refl d
  · exact NoEntry.add d _ rfl

/-- All the invariants about names. -/
structure NamesOK (d : Doc) : Prop where
  res : ResOK d
  first : First d
  cur : CurFontOK d
  named : AllNamed d

/-- A document that only gained objects without entries, fonts or colour spaces, with the same resources. -/
theorem NamesOK.frame {d d' : Doc} (h : NamesOK d) (f : Fr d d') (hn : NoNew d d') (he : NoEntry d d')
    (hc : d'.curFont = d.curFont) : NamesOK d' where
  res := h.res.frame f
  first := h.first.frame hn (rel_congr f.proc).2.1 (rel_congr f.proc).1
  cur := h.cur.grow f.ext (Grow.of_proc f.proc) hc
  named := h.named.frame he f.ext (Grow.of_proc f.proc)

/-- The entry just drawn has only defined names. -/
theorem EntryOK.named {d : Doc} (h : NamesOK d) {e : Entry} (he : EntryOK d e) : Named d e where
  gs := fun n hn => by
    obtain ⟨k, i, h1, h2⟩ := he.gs n hn
    exact ⟨i, by rw [h.res.gs]; exact List.mem_map.2 ⟨_, h2, rfl⟩, h1⟩
  xobj := fun n hn => by
    obtain ⟨k, i, h1, h2⟩ := he.xobj n hn
    exact ⟨i, by rw [h.res.xobjs]; exact List.mem_map.2 ⟨_, h1, rfl⟩, h2⟩
  cs := fun n hn => by
    obtain ⟨i, name, c, h1, h2⟩ := he.cs n hn
    obtain ⟨j, e1, e2, _, e3⟩ := findFrom_some h1
    have e1 : i = j := by omega
    subst e1
    refine ⟨_, h.first.cs i name c (ident_at e2) ?_, h2⟩
    intro k c' hk hk'
    unfold Doc.idents at hk'
    rw [List.getElem?_map] at hk'
    cases hq : d.objs[k]? with
    | none => rw [hq] at hk'; simp at hk'
    | some q =>
      rw [hq] at hk'; simp at hk'
      have := e3 k q hk hq
      cases q <;> simp [Obj.ident] at hk'
      simp [isCS, hk'] at this
  font := fun hu n hn => by
    obtain ⟨i, c, h1, h2⟩ := he.font n hn
    obtain ⟨r, h3, _, h4⟩ := h.cur hu i c h1
    exact ⟨r, h3, by omega⟩

theorem NamesOK.stable : Stable NamesOK where
  addPage := fun d b h => h.frame ⟨proc_add b _, rfl, rfl, rfl, rfl, rfl, step_ext d .addPage⟩
    (NoNew.add d _ (by simp [Obj.kind])) (NoEntry.add d _ rfl) rfl
  mkContent := fun d b h _ => h.frame (Fr.getContent b) (NoNew.getContent d) (NoEntry.getContent d)
    (by rw [getContent_fields])
  entry := fun d i e b h hc he => by
    have fr := Fr.entry b i e
    have g := Grow.of_proc fr.proc
    refine ⟨h.res.frame fr, h.first.frame (NoNew.upd d i _ (Obj.ident_addEntry e)) (rel_congr fr.proc).2.1
      (rel_congr fr.proc).1, h.cur.grow fr.ext g rfl, ?_⟩
    intro j o ho x hx
    simp only [Doc.upd, List.getElem?_modify] at ho
    cases hj : d.objs[j]? with
    | none => rw [hj] at ho; simp at ho
    | some q =>
      rw [hj] at ho; simp at ho
      have hq : x ∈ q.entries ∨ x = e := by
        split at ho
        · subst ho
          cases q <;> simp only [Obj.addEntry, Obj.entries] at hx ⊢ <;> first | exact Or.inl hx | skip
          simpa using List.mem_append.1 hx
        · subst ho; exact Or.inl hx
      rcases hq with hq | hq
      · exact (h.named j q hj x hq).grow fr.ext g
      · subst hq; exact (he.named h).grow fr.ext g
  newGS := fun d k b h hn hm => by
    have hx := Ext.extGState d k
    obtain ⟨e1, e2, e3, e4⟩ := rel_newGS b hn
    have g : Grow d (d.extGState k).1 := ⟨by rw [e1]; exact List.prefix_refl _, by rw [e2]; exact List.prefix_refl _,
      by rw [e3]; exact List.prefix_refl _, by rw [e4]; exact List.prefix_append _ _⟩
    refine ⟨ResOK.stable.newGS d k b h.res hn hm, h.first.frame (NoNew.extGState d k) e2 e1, h.cur.grow hx g ?_, ?_⟩
    · unfold Doc.extGState; split <;> rfl
    · refine h.named.frame ?_ hx g
      unfold Doc.extGState
      split
      · exact NoEntry.refl d
      · exact (NoEntry.add d _ rfl).trans (NoEntry.upd _ procIdx _ (fun o => by cases o <;> rfl))
  newTr := fun d a c i b h hn hm => ⟨ResOK.stable.newTr d a c i b h.res hn hm, h.first.frame (NoNew.of_objs rfl) rfl rfl,
    h.cur.grow (Ext.refl d) (Grow.of_proc rfl) rfl, h.named.frame (NoEntry.of_objs rfl) (Ext.refl d) (Grow.of_proc rfl)⟩
  setTr := fun d g b h hg => ⟨ResOK.stable.setTr d g b h.res hg, h.first.frame (NoNew.of_objs rfl) rfl rfl,
    h.cur.grow (Ext.refl d) (Grow.of_proc rfl) rfl, h.named.frame (NoEntry.of_objs rfl) (Ext.refl d) (Grow.of_proc rfl)⟩
  addImage := fun d _ _ b h _ => h.frame (Fr.add b _) (NoNew.add d _ (by simp [Obj.kind])) (NoEntry.add d _ rfl) rfl
  register := fun d id m i b h hn hi => by
    obtain ⟨e1, e2, e3, e4⟩ := rel_register b id i (!m.isMask && m.alpha) (!m.isMask && m.indexed)
    have hx := Ext.register d id i (!m.isMask && m.alpha) (!m.isMask && m.indexed)
    have g : Grow d (d.register id i (!m.isMask && m.alpha) (!m.isMask && m.indexed)) :=
      ⟨by rw [e1]; exact List.prefix_refl _, by rw [e2]; exact List.prefix_refl _,
        by rw [e3]; exact List.prefix_append _ _, by rw [e4]; exact List.prefix_refl _⟩
    exact ⟨ResOK.stable.register d id m i b h.res hn hi, h.first.frame (NoNew.register d id i _ _) e2 e1,
      h.cur.grow hx g (by rw [register_fields]), h.named.frame (NoEntry.register d id i _ _) hx g⟩
  group := fun d e b h he => by
    have fr := Fr.add b (.group [e])
    have g := Grow.of_proc fr.proc
    refine ⟨h.res.frame fr, h.first.frame (NoNew.add d _ (by simp [Obj.kind])) (rel_congr fr.proc).2.1
      (rel_congr fr.proc).1, h.cur.grow fr.ext g rfl, ?_⟩
    intro i o ho x hx
    simp only [Doc.add] at ho
    rcases Nat.lt_or_ge i d.objs.length with hi | hi
    · rw [List.getElem?_append_left hi] at ho; exact (h.named i o ho x hx).grow fr.ext g
    · rw [List.getElem?_append_right hi] at ho
      have := List.mem_of_getElem? ho
      simp at this; subst this
      simp [Obj.entries] at hx
      subst hx
      exact (he.named h).grow fr.ext g
  softMask := fun d g b h hn _ => h.frame (Fr.softMask b g) (NoNew.softMask d g) (by
    unfold Doc.softMask; split
    · exact NoEntry.refl d
    · exact NoEntry.add d _ rfl) (by unfold Doc.softMask; split <;> rfl)
  addFont := fun d f s b h => by
    have hx := Ext.addFont d f s
    have hres := ResOK.stable.addFont d f s b h.res
    obtain ⟨cnt, hid, hcase⟩ := addFont_cases d b f s
    have g : Grow d (d.addFont f s) := by
      rcases hcase with ⟨_, hp, _, _⟩ | ⟨_, _, e1, e2, e3, e4, _⟩
      · exact Grow.of_proc hp
      · exact ⟨by rw [e1]; exact List.prefix_append _ _, by rw [e2]; exact List.prefix_refl _,
          by rw [e3]; exact List.prefix_refl _, by rw [e4]; exact List.prefix_refl _⟩
    have hcs : (d.addFont f s).relCSs = d.relCSs := by
      rcases hcase with ⟨_, hp, _, _⟩ | ⟨_, _, e1, e2, e3, e4, _⟩
      · exact (rel_congr hp).2.1
      · exact e2
    refine ⟨hres, ⟨?_, ?_⟩, h.cur.grow hx g (by unfold Doc.addFont; simp only []; split <;> rfl),
      h.named.frame (NoEntry.addFont d f s) hx g⟩
    · intro i name c hi hno
      rw [hcs]
      refine h.first.cs i name c ?_ (fun j c' hj hj' => hno j c' hj (prefix_get hx hj'))
      rw [hid] at hi
      exact get_old hi (by simp)
    · intro hu i f' s' c cid uni hi hno
      rcases Nat.lt_or_ge i d.objs.length with hlt | hge
      · refine g.fonts.subset (h.first.font (hu.ext hx) i f' s' c cid uni ?_
          (fun j c' a b hj hj' => hno j c' a b hj (prefix_get hx hj')))
        rw [hid, List.getElem?_append_left (by rw [idents_len]; exact hlt)] at hi
        exact hi
      · rw [hid, List.getElem?_append_right (by rw [idents_len]; exact hge), idents_len] at hi
        have hi4 : i = d.objs.length + 4 ∧ f' = f ∧ s' = s ∧ c = cnt := by
          have : i - d.objs.length < 5 := by
            have := lt_of_get hi
            simpa using this
          have h5 : i - d.objs.length = 0 ∨ i - d.objs.length = 1 ∨ i - d.objs.length = 2 ∨ i - d.objs.length = 3 ∨
              i - d.objs.length = 4 := by omega
          rcases h5 with h5 | h5 | h5 | h5 | h5 <;> rw [h5] at hi <;> simp at hi
          obtain ⟨rfl, rfl, rfl, rfl, rfl⟩ := hi
          exact ⟨by omega, rfl, rfl, rfl⟩
        obtain ⟨rfl, rfl, rfl, rfl⟩ := hi4
        have hsu : noUnderline s' = s' := hu (d.objs.length + 4) f' s' c (d.objs.length + 3) d.objs.length (by
          rw [hid, List.getElem?_append_right (by rw [idents_len]; omega), idents_len]; simp)
        rcases hcase with ⟨⟨r, hr, hf, hs⟩, hp, _, _⟩ | ⟨_, hc, e1, _⟩
        · exfalso
          obtain ⟨s2, c2, u2, h1, h2⟩ := h.res.fontObj r hr
          have h3 := hu.ext hx r.index _ _ _ _ _ h1
          have : s2 = s' := by rw [← h3, h2, hs, hsu]
          rw [this, hf] at h1
          have hlt := lt_of_get h1
          rw [idents_len] at hlt
          exact hno r.index _ _ _ (by omega) (prefix_get hx h1)
        · rw [e1, hsu]; simp
  setFont := fun d f s b h => by
    have e := setFont_fields d f s
    have fr : Fr d (d.setFont f s).1 := by rw [e]; exact ⟨rfl, rfl, rfl, rfl, rfl, rfl, Ext.refl _⟩
    have hobjs : (d.setFont f s).1.objs = d.objs := by rw [e]
    refine ⟨h.res.frame fr, h.first.frame (NoNew.of_objs hobjs) (rel_congr fr.proc).2.1 (rel_congr fr.proc).1, ?_,
      h.named.frame (NoEntry.of_objs hobjs) fr.ext (Grow.of_proc fr.proc)⟩
    unfold Doc.setFont
    split
    · next i f' s' c cid uni heq =>
      intro hu i' c' hi
      simp at hi
      obtain ⟨rfl, rfl⟩ := hi
      obtain ⟨j, e1, e2, e3, e4⟩ := findFrom_some heq
      have e1 : i = j := by omega
      subst e1
      simp [isFont] at e3
      refine ⟨_, h.first.font hu i f' s' c cid uni (ident_at e2) ?_, rfl, rfl⟩
      intro k c' a a' hk hk'
      unfold Doc.idents at hk'
      rw [List.getElem?_map] at hk'
      cases hq : d.objs[k]? with
      | none => rw [hq] at hk'; simp at hk'
      | some q =>
        rw [hq] at hk'; simp at hk'
        have := e4 k q hk hq
        cases q <;> simp [Obj.ident] at hk'
        simp [isFont, hk', e3] at this
    · exact h.cur
  addColorSpace := fun d n b h => by
    have hx := Ext.addColorSpace d n
    have hres := ResOK.stable.addColorSpace d n b h.res
    rcases addColorSpace_cases d b n with ⟨⟨r, hr, hrn⟩, e⟩ | ⟨hnew, _, hid, e2, e1, e3, e4, hf⟩
    · rw [e] at hx hres ⊢
      have fr := Fr.add b (.colorSpace n 0)
      have g := Grow.of_proc fr.proc
      refine ⟨hres, ⟨?_, ?_⟩, h.cur.grow hx g rfl, h.named.frame (NoEntry.add d _ rfl) hx g⟩
      · intro i name c hi hno
        refine g.css.subset (h.first.cs i name c ?_ (fun j c' hj hj' => hno j c' hj (prefix_get hx hj')))
        rcases Nat.lt_or_ge i d.objs.length with hlt | hge
        · rw [idents_add, List.getElem?_append_left (by rw [idents_len]; exact hlt)] at hi; exact hi
        · exfalso
          rw [idents_add, List.getElem?_append_right (by rw [idents_len]; exact hge)] at hi
          have := List.mem_of_getElem? hi
          simp [Obj.ident] at this
          obtain ⟨rfl, rfl⟩ := this
          have h1 := h.res.csObj r hr
          have hlt := lt_of_get h1
          rw [idents_len] at hlt
          rw [hrn] at h1
          exact hno r.index r.count (by omega) (prefix_get hx h1)
      · intro hu i f s c cid uni hi hno
        refine g.fonts.subset (h.first.font (hu.ext hx) i f s c cid uni ?_
          (fun j c' a b hj hj' => hno j c' a b hj (prefix_get hx hj')))
        rw [idents_add] at hi
        exact get_old hi (by simp [Obj.ident])
    · have hne : NoEntry d (d.addColorSpace n).1 := by
        unfold Doc.addColorSpace
        simp only []
        split
        · exact NoEntry.add d _ rfl
        · exact (NoEntry.add d _ rfl).trans (NoEntry.upd _ procIdx _ (fun o => by cases o <;> rfl))
      generalize (d.addColorSpace n).1 = x at *
      have g : Grow d x := ⟨by rw [e1]; exact List.prefix_refl _, by rw [e2]; exact List.prefix_append _ _,
        by rw [e3]; exact List.prefix_refl _, by rw [e4]; exact List.prefix_refl _⟩
      refine ⟨hres, ⟨?_, ?_⟩, h.cur.grow hx g (by rw [hf]), h.named.frame hne hx g⟩
      · intro i name c hi hno
        rcases Nat.lt_or_ge i d.objs.length with hlt | hge
        · refine g.css.subset (h.first.cs i name c ?_ (fun j c' hj hj' => hno j c' hj (prefix_get hx hj')))
          rw [hid, List.getElem?_append_left (by rw [idents_len]; exact hlt)] at hi; exact hi
        · have hlt := lt_of_get hi
          rw [hid] at hlt
          simp [idents_len] at hlt
          have : i = d.objs.length := by omega
          subst this
          rw [hid, List.getElem?_append_right (by rw [idents_len]; exact hge)] at hi
          have := List.mem_of_getElem? hi
          simp at this
          obtain ⟨rfl, rfl⟩ := this
          rw [e2]; simp
      · intro hu i f s c cid uni hi hno
        refine g.fonts.subset (h.first.font (hu.ext hx) i f s c cid uni ?_
          (fun j c' a b hj hj' => hno j c' a b hj (prefix_get hx hj')))
        rw [hid] at hi
        exact get_old hi (by simp)
  addLink := fun d a b h => h.frame (Fr.addLink b a) (NoNew.addLink d a) (by
    unfold Doc.addLink; split
    · exact NoEntry.refl d
    · next p _ => exact (NoEntry.add d _ rfl).trans (NoEntry.upd _ p _ (fun o => by cases o <;> rfl)))
    (by rw [addLink_fields])
  setAnchor := fun d n y b h => ⟨ResOK.stable.setAnchor d n y b h.res, h.first.frame (NoNew.of_objs rfl) rfl rfl,
    h.cur.grow (Ext.refl d) (Grow.of_proc rfl) rfl, h.named.frame (NoEntry.of_objs rfl) (Ext.refl d) (Grow.of_proc rfl)⟩
  addOutline := fun d t b h => h.frame (Fr.addOutline b t) (NoNew.addOutline d t) (NoEntry.addOutline d t)
    (by rw [addOutline_fields])
  imported := fun d b h => h.frame (Fr.add b _) (NoNew.add d _ (by simp [Obj.kind])) (NoEntry.add d _ rfl) rfl
  setPage := fun d k b h => h.frame (by rw [setPage_fields]; exact ⟨rfl, rfl, rfl, rfl, rfl, rfl, Ext.refl _⟩)
    (NoNew.of_objs (by rw [setPage_fields])) (NoEntry.of_objs (by rw [setPage_fields])) (by rw [setPage_fields])
  prepare := fun d b h => h.frame (Fr.prepare b) (NoNew.prepare d) (NoEntry.prepare d) (by rw [prepare_fields])

theorem NamesOK.start (p : Bool) : NamesOK (start p) := by
  refine ⟨ResOK.start p, ⟨?_, ?_⟩, ?_, ?_⟩
  · intro i name c hi
    exfalso
    have := List.mem_of_getElem? hi
    simp [Doc.start, Doc.idents, Obj.ident] at this
  · intro _ i f s c cid uni hi
    exfalso
    have := List.mem_of_getElem? hi
    simp [Doc.start, Doc.idents, Obj.ident] at this
  · intro _ i c hi; simp [Doc.start] at hi
  · intro i o ho e he
    have := List.mem_of_getElem? ho
    simp [Doc.start] at this
    rcases this with rfl | rfl | rfl | rfl <;> simp [Obj.entries] at he

theorem reachable_names {d : Doc} (h : Reachable d) : NamesOK d :=
  (reachable_of_stable NamesOK.stable NamesOK.start h).2

end Verif.Doc
