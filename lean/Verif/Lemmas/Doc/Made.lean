import Verif.Lemmas.Doc.New
/- Induction for predicates about graphics states and the encryption dictionary. -/
namespace Verif.Doc

/-- `d'` has new objects, none of them a graphics state or an encryption dictionary. -/
structure Made (d d' : Doc) : Prop where
  objs : ∃ l, d'.idents = d.idents ++ l ∧ ∀ o ∈ l, o.kind ≠ .graphicsState ∧ o.kind ≠ .encryption
  gss : d'.gss = d.gss
  prot : d'.prot = d.prot
  encId : d'.encId = d.encId

theorem Made.refl (d : Doc) : Made d d := ⟨⟨[], by simp, by simp⟩, rfl, rfl, rfl⟩
theorem Made.of_objs {d d' : Doc} (h : d'.objs = d.objs) (h1 : d'.gss = d.gss) (h2 : d'.prot = d.prot)
    (h3 : d'.encId = d.encId) : Made d d' := ⟨⟨[], by simp [Doc.idents, h], by simp⟩, h1, h2, h3⟩
theorem Made.trans {a b c : Doc} (h : Made a b) (h' : Made b c) : Made a c := by
  obtain ⟨⟨l, e, hl⟩, h1, h2, h3⟩ := h
  obtain ⟨⟨l', e', hl'⟩, h1', h2', h3'⟩ := h'
  refine ⟨⟨l ++ l', by rw [e', e, List.append_assoc], ?_⟩, h1'.trans h1, h2'.trans h2, h3'.trans h3⟩
  intro o ho
  rcases List.mem_append.1 ho with h | h
  · exact hl o h
  · exact hl' o h
theorem Made.add (d : Doc) (o : Obj) (h : o.kind ≠ .graphicsState ∧ o.kind ≠ .encryption) : Made d (d.add o) :=
  ⟨⟨[o.ident], idents_add d o, by simp [kind_ident, h]⟩, rfl, rfl, rfl⟩
theorem Made.upd (d : Doc) (i : Nat) (f : Obj → Obj) (h : ∀ o, (f o).ident = o.ident) : Made d (d.upd i f) :=
  ⟨⟨[], by rw [idents_upd d i f h]; simp, by simp⟩, rfl, rfl, rfl⟩

theorem stable0_of_made {P : Doc → Prop} (hP : ∀ d d', P d → Made d d' → P d')
    (newGS : ∀ d k, Base d → P d → assoc d.gss k = none → P (d.extGState k).1) : Stable0 P where
  addPage := fun d _ h => hP d _ h ((Made.add d (.page [] [] (procIdx + 1)) (by simp [Obj.kind])).trans (.of_objs rfl rfl rfl rfl))
  mkContent := fun d _ h _ => hP d _ h (by
    unfold Doc.getContent; split
    · exact Made.refl d
    · exact (Made.add d (.content []) (by simp [Obj.kind])).trans (.of_objs rfl rfl rfl rfl))
  entry := fun d i e _ h _ _ => hP d _ h (Made.upd d i _ (Obj.ident_addEntry e))
  newGS := fun d k b h hn _ => newGS d k b h hn
  newTr := fun d _ _ _ _ h _ _ => hP d _ h (.of_objs rfl rfl rfl rfl)
  setTr := fun d _ _ h _ => hP d _ h (.of_objs rfl rfl rfl rfl)
  addImage := fun d _ _ _ h _ => hP d _ h (Made.add d _ (by simp [Obj.kind]))
  register := fun d id m i _ h _ _ => hP d _ h (by
    have c0 : Made d (d.cacheImage id i) :=
      (Made.upd d procIdx (Obj.addXobj i) (Obj.ident_addXobj _)).trans (.of_objs rfl rfl rfl rfl)
    have s1 : ∀ e : Doc, Made e (e.addSMaskImage i) := fun e =>
      (Made.add e .imageSMask (by simp [Obj.kind])).trans (Made.upd _ _ _ (Obj.ident_setSMask _))
    have s2 : ∀ e : Doc, Made e (e.addPalette i) := fun e =>
      (Made.add e .deviceRGB (by simp [Obj.kind])).trans (Made.upd _ _ _ (Obj.ident_setRGB _))
    unfold Doc.register
    simp only []
    split <;> split
    · exact (c0.trans (s1 _)).trans (s2 _)
    · exact c0.trans (s2 _)
    · exact c0.trans (s1 _)
    · exact c0)
  group := fun d _ _ h _ => hP d _ h (Made.add d _ (by simp [Obj.kind]))
  softMask := fun d g _ h _ _ => hP d _ h (by
    unfold Doc.softMask; split
    · exact Made.refl d
    · exact (Made.add d (.softMask g) (by simp [Obj.kind])).trans (.of_objs rfl rfl rfl rfl))
  addFont := fun d f s b h => hP d _ h (by
    unfold Doc.addFont
    simp only []
    have h6 := fun cnt => ((((Made.add d .unicodeMap (by simp [Obj.kind])).trans (Made.add _ .fontFile (by simp [Obj.kind]))).trans
      (Made.add _ (.fontDesc (d.objs.length + 1)) (by simp [Obj.kind]))).trans
      (Made.add _ (.cidFont (d.objs.length + 2)) (by simp [Obj.kind]))).trans
      (Made.add _ (.font f s cnt (d.objs.length + 3) d.objs.length) (by simp [Obj.kind]))
    split
    · exact ((h6 _).trans (Made.upd _ procIdx _ (Obj.ident_addFontRel _))).trans (.of_objs rfl rfl rfl rfl)
    · exact h6 _)
  setFont := fun d f s _ h => hP d _ h (by rw [setFont_fields]; exact .of_objs rfl rfl rfl rfl)
  addColorSpace := fun d n b h => hP d _ h (by
    unfold Doc.addColorSpace
    simp only []
    split
    · exact Made.add d _ (by simp [Obj.kind])
    · exact ((Made.add d (.colorSpace n d.csCount) (by simp [Obj.kind])).trans (Made.upd _ procIdx _ (Obj.ident_addCSRel _))).trans
        (.of_objs rfl rfl rfl rfl))
  addLink := fun d a _ h => hP d _ h (by
    unfold Doc.addLink; split
    · exact Made.refl d
    · next p _ => exact (Made.add d (.annot a) (by simp [Obj.kind])).trans (Made.upd _ p _ (Obj.ident_addLinkId _)))
  setAnchor := fun d _ _ _ h => hP d _ h (.of_objs rfl rfl rfl rfl)
  addOutline := fun d t _ h => hP d _ h (by
    unfold Doc.addOutline
    simp only []
    have k := (Made.add d (.outline t d.curPageId 2 (d.lastOutline.map (· + 1)) none) (by simp [Obj.kind])).trans
      (Made.upd _ outlinesIdx (Obj.addOutlineId (d.objs.length + 1)) (Obj.ident_addOutlineId _))
    split
    · exact k.trans (.of_objs rfl rfl rfl rfl)
    · next j _ =>
      exact (k.trans (Made.upd _ j (Obj.setNext (d.objs.length + 1)) (Obj.ident_setNext _))).trans (.of_objs rfl rfl rfl rfl))
  imported := fun d _ h => hP d _ h (Made.add d _ (by simp [Obj.kind]))
  setPage := fun d k _ h => hP d _ h (by rw [setPage_fields]; exact .of_objs rfl rfl rfl rfl)

theorem ident_gs {o : Obj} {k : GKey} (h : o.ident = .extGS k) : o = .extGS k := by
  cases o <;> simp [Obj.ident] at h <;> simp [h]
theorem ident_enc {o : Obj} (h : o.ident = .encryption) : o = .encryption := by
  cases o <;> simp [Obj.ident] at h; rfl

/-- Every graphics state object is in the cache. -/
def GsDone (d : Doc) : Prop := ∀ (i : Nat) k, d.idents[i]? = some (.extGS k) → (k, i) ∈ d.gss

theorem GsDone.frame {d d' : Doc} (h : GsDone d) {l : List Obj} (e : d'.idents = d.idents ++ l)
    (hl : ∀ o ∈ l, o.kind ≠ .graphicsState) (hg : d'.gss = d.gss) : GsDone d' := by
  intro i k hi
  rw [e] at hi
  have := get_old hi (fun x hx he => hl x hx (by rw [he]; rfl))
  rw [hg]; exact h i k this

theorem GsDone.stable : Stable GsDone where
  toStable0 := stable0_of_made (fun d d' h m => by
      obtain ⟨⟨l, e, hl⟩, h1, _, _⟩ := m
      exact h.frame e (fun o ho => (hl o ho).1) h1)
    (fun d k b h hn => by
      rw [extGState_miss hn]
      intro i k' hi
      have e : (Doc.upd (d.add (.extGS k)) procIdx (Obj.addGS d.objs.length)).idents = d.idents ++ [.extGS k] := by
        rw [idents_upd _ _ _ (Obj.ident_addGS _), idents_add]; rfl
      have hi' : (d.idents ++ [.extGS k])[i]? = some (.extGS k') := by rw [← e]; exact hi
      show (k', i) ∈ d.gss ++ [(k, d.objs.length)]
      rcases Nat.lt_or_ge i d.idents.length with hlt | hge
      · rw [List.getElem?_append_left hlt] at hi'
        exact List.mem_append_left _ (h i k' hi')
      · have hlen := lt_of_get hi'
        rw [List.length_append, List.length_singleton] at hlen
        have : i = d.idents.length := by omega
        subst this
        simp at hi'
        subst hi'
        rw [idents_len]; simp)
  prepare := fun d b h => h.frame (prepare_idents d) (by
    intro o ho; split at ho
    · simp at ho; subst ho; simp [Obj.kind]
    · simp at ho) (by rw [prepare_fields])

theorem reachable_gs {d : Doc} (h : Reachable d) : GsDone d :=
  (reachable_of_stable GsDone.stable (by
    intro p i k hi
    have := List.mem_of_getElem? hi
    simp [start, Doc.idents, Obj.ident] at this) h).2

/-- No encryption dictionary without protection. -/
def NoEnc (p : Bool) (d : Doc) : Prop := d.prot = p ∧ (p = false → d.encId = 0 ∧ ∀ o ∈ d.idents, o.kind ≠ .encryption)

theorem prepFold_enc (l : List Nat) (st : List Obj × Option Nat × Nat) (h : ∀ o ∈ st.1.map Obj.ident, o.kind ≠ .encryption) :
    (l.foldl prepStep st).2.2 = st.2.2 := by
  induction l generalizing st with
  | nil => rfl
  | cons i l ih =>
    rw [List.foldl_cons, ih _ (by rw [prepStep_ident]; exact h)]
    unfold prepStep
    split
    · rfl
    · split <;> rfl
    · next he =>
      have := h _ (List.mem_map.2 ⟨_, List.mem_of_getElem? he, rfl⟩)
      exact absurd rfl this
    · rfl

theorem NoEnc.stable (p : Bool) : Stable (NoEnc p) where
  toStable0 := stable0_of_made (fun d d' h m => by
      obtain ⟨⟨l, e, hl⟩, _, h2, h3⟩ := m
      refine ⟨h2.trans h.1, fun hp => ⟨h3.trans (h.2 hp).1, ?_⟩⟩
      intro o ho
      rw [e] at ho
      rcases List.mem_append.1 ho with ho | ho
      · exact (h.2 hp).2 o ho
      · exact (hl o ho).2)
    (fun d k b h hn => by
      rw [extGState_miss hn]
      refine ⟨h.1, fun hp => ⟨(h.2 hp).1, ?_⟩⟩
      intro o ho
      have e : (Doc.upd (d.add (.extGS k)) procIdx (Obj.addGS d.objs.length)).idents = d.idents ++ [.extGS k] := by
        rw [idents_upd _ _ _ (Obj.ident_addGS _), idents_add]; rfl
      have ho' : o ∈ d.idents ++ [.extGS k] := by rw [← e]; exact ho
      rcases List.mem_append.1 ho' with ho | ho
      · exact (h.2 hp).2 o ho
      · simp at ho; subst ho; simp [Obj.kind])
  prepare := fun d b h => by
    refine ⟨?_, fun hp => ?_⟩
    · rw [prepare_fields]; exact h.1
    · have hid : d.prepare.idents = d.idents := by rw [prepare_idents, h.1, hp]; simp
      obtain ⟨h1, h2⟩ := h.2 hp
      refine ⟨?_, by rw [hid]; exact h2⟩
      rw [prepare_eq]
      show (List.foldl prepStep _ _).2.2 = 0
      rw [prepFold_enc _ _ (by
        show ∀ o ∈ d.prep0.idents, _
        rw [prep0_idents, h.1, hp]; simpa using h2)]
      show d.prep0.encId = 0
      unfold Doc.prep0
      rw [h.1, hp]
      unfold Doc.markOutlines
      split
      · split <;> exact h1
      · exact h1

theorem exec_enc (p : Bool) (h : List Op) : NoEnc p (exec (start p) h) :=
  (both_exec (NoEnc.stable p) ⟨Base.start p, rfl, fun _ => ⟨rfl, by simp [start, Doc.idents, Obj.ident, Obj.kind]⟩⟩ h).2

/-- With protection, the encryption dictionary named is the one added last. -/
theorem prepare_enc {d : Doc} (hp : d.prot = true) :
    d.prepare.encId = d.objs.length + 1 ∧ d.prepare.objs[d.objs.length]? = some .encryption := by
  have hid : d.prepare.idents = d.idents ++ [.encryption] := by rw [prepare_idents, hp]; simp
  have h0 : d.prep0.idents = d.idents ++ [.encryption] := by rw [prep0_idents, hp]; simp
  have get : ∀ l : List Obj, l.map Obj.ident = d.idents ++ [.encryption] → l[d.objs.length]? = some .encryption := by
    intro l hl
    have : (l.map Obj.ident)[d.objs.length]? = some .encryption := by
      rw [hl, ← idents_len]; simp
    rw [List.getElem?_map, Option.map_eq_some_iff] at this
    obtain ⟨o, h1, h2⟩ := this
    rw [h1, ident_enc h2]
  refine ⟨?_, get _ hid⟩
  have hlen : d.prep0.objs.length = d.objs.length + 1 := by
    have := congrArg List.length h0
    rw [idents_len, List.length_append, idents_len] at this
    exact this
  rw [prepare_eq]
  show (List.foldl prepStep _ _).2.2 = _
  rw [hlen, List.range_succ, List.foldl_append]
  have hg := get (List.foldl prepStep (d.prep0.objs, none, d.prep0.encId) (List.range d.objs.length)).1
    (by rw [prep_ident]; exact h0)
  generalize List.foldl prepStep (d.prep0.objs, none, d.prep0.encId) (List.range d.objs.length) = st at hg
  simp only [List.foldl_cons, List.foldl_nil]
  unfold prepStep
  rw [hg]

end Verif.Doc
