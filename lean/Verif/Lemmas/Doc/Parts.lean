import Verif.Lemmas.Doc.Names
import Verif.Lemmas.Doc.Blind
/- The objects that belong together: the five of a font, an image and its soft mask and palette. -/
namespace Verif.Doc

/-! ### Fonts -/

/-- The five objects of a font, starting at index `u`. -/
def Block (d : Doc) (u : Nat) : Prop :=
  d.idents[u]? = some .unicodeMap ∧ d.idents[u + 1]? = some .fontFile ∧ d.idents[u + 2]? = some (.fontDesc (u + 1)) ∧
  d.idents[u + 3]? = some (.cidFont (u + 2)) ∧ ∃ f s c, d.idents[u + 4]? = some (.font f s c (u + 3) u)

def IsPart : Obj → Bool
  | .unicodeMap => true
  | .fontFile => true
  | .fontDesc _ => true
  | .cidFont _ => true
  | .font _ _ _ _ _ => true
  | _ => false

theorem isPart_ident (o : Obj) : IsPart o.ident = IsPart o := by cases o <;> rfl

/-- Place of a part among the five. -/
def place : Obj → Nat
  | .fontFile => 1
  | .fontDesc _ => 2
  | .cidFont _ => 3
  | .font _ _ _ _ _ => 4
  | _ => 0

def Parts (d : Doc) : Prop := ∀ (i : Nat) o, d.idents[i]? = some o → IsPart o = true → ∃ u, i = u + place o ∧ Block d u

def NoPart (d d' : Doc) : Prop := ∃ l, d'.idents = d.idents ++ l ∧ ∀ o ∈ l, IsPart o = false

theorem NoPart.refl (d : Doc) : NoPart d d := ⟨[], by simp, by simp⟩
theorem NoPart.of_objs {d d' : Doc} (h : d'.objs = d.objs) : NoPart d d' := ⟨[], by simp [Doc.idents, h], by simp⟩
theorem NoPart.trans {a b c : Doc} (h : NoPart a b) (h' : NoPart b c) : NoPart a c := by
  obtain ⟨l, e, hl⟩ := h
  obtain ⟨l', e', hl'⟩ := h'
  refine ⟨l ++ l', by rw [e', e, List.append_assoc], ?_⟩
  intro o ho
  rcases List.mem_append.1 ho with h | h
  · exact hl o h
  · exact hl' o h
theorem NoPart.add (d : Doc) (o : Obj) (h : IsPart o = false) : NoPart d (d.add o) :=
  ⟨[o.ident], idents_add d o, by simp [isPart_ident, h]⟩
theorem NoPart.upd (d : Doc) (i : Nat) (f : Obj → Obj) (h : ∀ o, (f o).ident = o.ident) : NoPart d (d.upd i f) :=
  ⟨[], by rw [idents_upd d i f h]; simp, by simp⟩

theorem Block.ext {d d' : Doc} {u : Nat} (h : Block d u) (e : d.idents <+: d'.idents) : Block d' u := by
  obtain ⟨h1, h2, h3, h4, f, s, c, h5⟩ := h
  exact ⟨prefix_get e h1, prefix_get e h2, prefix_get e h3, prefix_get e h4, f, s, c, prefix_get e h5⟩

theorem Parts.frame {d d' : Doc} (h : Parts d) (hn : NoPart d d') : Parts d' := by
  obtain ⟨l, e, hl⟩ := hn
  intro i o hi hp
  rw [e] at hi
  rcases Nat.lt_or_ge i d.idents.length with hlt | hge
  · rw [List.getElem?_append_left hlt] at hi
    obtain ⟨u, h1, h2⟩ := h i o hi hp
    exact ⟨u, h1, h2.ext ⟨l, e.symm⟩⟩
  · rw [List.getElem?_append_right hge] at hi
    rw [hl o (List.mem_of_getElem? hi)] at hp
    simp at hp

theorem Parts.stable : Stable Parts where
  addPage := fun d _ h => h.frame (NoPart.add d _ rfl)
  mkContent := fun d _ h _ => h.frame (by
    unfold Doc.getContent; split
    · exact NoPart.refl d
    · exact NoPart.add d _ rfl)
  entry := fun d i e _ h _ _ => h.frame (NoPart.upd d i _ (Obj.ident_addEntry e))
  newGS := fun d k _ h _ _ => h.frame (by
    unfold Doc.extGState; split
    · exact NoPart.refl d
    · exact (NoPart.add d (.extGS k) rfl).trans (NoPart.upd _ procIdx _ (Obj.ident_addGS _)))
  newTr := fun _ _ _ _ _ h _ _ => h
  setTr := fun _ _ _ h _ => h
  addImage := fun d _ _ _ h _ => h.frame (NoPart.add d _ rfl)
  register := fun d id m i _ h _ _ => h.frame (by
    have c0 : NoPart d (d.cacheImage id i) := NoPart.upd d procIdx (Obj.addXobj i) (Obj.ident_addXobj _)
    have s1 : ∀ e : Doc, NoPart e (e.addSMaskImage i) := fun e =>
      (NoPart.add e .imageSMask rfl).trans (NoPart.upd _ _ _ (Obj.ident_setSMask _))
    have s2 : ∀ e : Doc, NoPart e (e.addPalette i) := fun e =>
      (NoPart.add e .deviceRGB rfl).trans (NoPart.upd _ _ _ (Obj.ident_setRGB _))
    unfold Doc.register
    simp only []
    split <;> split
    · exact (c0.trans (s1 _)).trans (s2 _)
    · exact c0.trans (s2 _)
    · exact c0.trans (s1 _)
    · exact c0)
  group := fun d _ _ h _ => h.frame (NoPart.add d _ rfl)
  softMask := fun d g _ h _ _ => h.frame (by
    unfold Doc.softMask; split
    · exact NoPart.refl d
    · exact NoPart.add d _ rfl)
  addFont := fun d f s b h => by
    obtain ⟨cnt, hid, _⟩ := addFont_cases d b f s
    have hb : Block (d.addFont f s) d.objs.length := by
      have hl : ∀ n, (d.idents ++ [Obj.unicodeMap, .fontFile, .fontDesc (d.objs.length + 1), .cidFont (d.objs.length + 2),
          .font f s cnt (d.objs.length + 3) d.objs.length])[d.objs.length + n]? = [Obj.unicodeMap, .fontFile, .fontDesc (d.objs.length + 1),
          .cidFont (d.objs.length + 2), .font f s cnt (d.objs.length + 3) d.objs.length][n]? := by
        intro n
        rw [List.getElem?_append_right (by rw [idents_len]; omega), idents_len, Nat.add_sub_cancel_left]
      unfold Block
      rw [hid]
      exact ⟨hl 0, hl 1, hl 2, hl 3, f, s, cnt, hl 4⟩
    intro i o hi hp
    rw [hid] at hi
    rcases Nat.lt_or_ge i d.idents.length with hlt | hge
    · rw [List.getElem?_append_left hlt] at hi
      obtain ⟨u, h1, h2⟩ := h i o hi hp
      exact ⟨u, h1, h2.ext ⟨_, hid.symm⟩⟩
    · rw [List.getElem?_append_right hge] at hi
      refine ⟨d.objs.length, ?_, hb⟩
      rw [idents_len] at hi hge
      generalize hk : i - d.objs.length = k at hi
      have : i = d.objs.length + k := by omega
      rw [this]
      congr 1
      match k, hi with
      | 0, hi => simp at hi; subst hi; rfl
      | 1, hi => simp at hi; subst hi; rfl
      | 2, hi => simp at hi; subst hi; rfl
      | 3, hi => simp at hi; subst hi; rfl
      | 4, hi => simp at hi; subst hi; rfl
      | n + 5, hi => simp at hi
  setFont := fun d f s _ h => h.frame (NoPart.of_objs (by rw [setFont_fields]))
  addColorSpace := fun d n b h => h.frame (by
    rcases addColorSpace_cases d b n with ⟨_, e⟩ | ⟨_, _, hid, _⟩
    · rw [e]; exact NoPart.add d _ rfl
    · exact ⟨_, hid, by simp [IsPart]⟩)
  addLink := fun d a _ h => h.frame (by
    unfold Doc.addLink; split
    · exact NoPart.refl d
    · next p _ => exact (NoPart.add d (.annot a) rfl).trans (NoPart.upd _ p _ (Obj.ident_addLinkId _)))
  setAnchor := fun _ _ _ _ h => h
  addOutline := fun d t _ h => h.frame (by
    unfold Doc.addOutline
    simp only []
    have k := (NoPart.add d (.outline t d.curPageId 2 (d.lastOutline.map (· + 1)) none) rfl).trans
      (NoPart.upd _ outlinesIdx (Obj.addOutlineId (d.objs.length + 1)) (Obj.ident_addOutlineId _))
    split
    · exact k
    · next j _ => exact k.trans (NoPart.upd _ j (Obj.setNext (d.objs.length + 1)) (Obj.ident_setNext _)))
  imported := fun d _ h => h.frame (NoPart.add d _ rfl)
  setPage := fun d k _ h => h.frame (NoPart.of_objs (by rw [setPage_fields]))
  prepare := fun d _ h => h.frame (by
    refine ⟨_, prepare_idents d, ?_⟩
    intro o ho
    split at ho
    · simp at ho; subst ho; rfl
    · simp at ho)

theorem Parts.start (p : Bool) : Parts (start p) := by
  intro i o hi hp
  exfalso
  have h4 := lt_of_get hi
  simp [Doc.idents, Doc.start] at h4
  match i, hi with
  | 0, hi => simp [Doc.idents, Doc.start, Obj.ident] at hi; subst hi; simp [IsPart] at hp
  | 1, hi => simp [Doc.idents, Doc.start, Obj.ident] at hi; subst hi; simp [IsPart] at hp
  | 2, hi => simp [Doc.idents, Doc.start, Obj.ident] at hi; subst hi; simp [IsPart] at hp
  | 3, hi => simp [Doc.idents, Doc.start, Obj.ident] at hi; subst hi; simp [IsPart] at hp
  | n + 4, _ => omega

theorem reachable_parts {d : Doc} (h : Reachable d) : Parts d := (reachable_of_stable Parts.stable Parts.start h).2

/-! ### Images -/

/-- The soft mask (`true`) or palette (`false`) of an image. -/
def ownOf (b : Bool) : Obj → Option Nat
  | .image _ _ s r => if b then s else r
  | _ => none

/-- No object is the soft mask (palette) of two images. -/
def Uniq (b : Bool) (d : Doc) : Prop :=
  (∀ (i i' j : Nat), (d.objs.map (ownOf b))[i]? = some (some j) → (d.objs.map (ownOf b))[i']? = some (some j) → i = i') ∧
  ∀ (i j : Nat), (d.objs.map (ownOf b))[i]? = some (some j) → j < d.objs.length

def Own (b : Bool) (d d' : Doc) : Prop := ∃ n, d'.objs.map (ownOf b) = d.objs.map (ownOf b) ++ List.replicate n none

variable {b : Bool}

theorem Own.refl (d : Doc) : Own b d d := ⟨0, by simp⟩
theorem Own.of_objs {d d' : Doc} (h : d'.objs = d.objs) : Own b d d' := ⟨0, by simp [h]⟩
theorem Own.trans {a x c : Doc} (h : Own b a x) (h' : Own b x c) : Own b a c := by
  obtain ⟨n, e⟩ := h
  obtain ⟨m, e'⟩ := h'
  exact ⟨n + m, by rw [e', e, List.append_assoc, List.replicate_append_replicate]⟩
theorem Own.add (d : Doc) (o : Obj) (h : ownOf b o = none) : Own b d (d.add o) := ⟨1, by simp [Doc.add, h]⟩
theorem Own.upd (d : Doc) (i : Nat) (f : Obj → Obj) (h : ∀ o, ownOf b (f o) = ownOf b o) : Own b d (d.upd i f) :=
  ⟨0, by simp [Doc.upd, map_modify' f h]⟩

theorem get_some_append {l : List (Option Nat)} {n i j : Nat} (h : (l ++ List.replicate n none)[i]? = some (some j)) : l[i]? = some (some j) := by
  rcases Nat.lt_or_ge i l.length with hi | hi
  · rwa [List.getElem?_append_left hi] at h
  · rw [List.getElem?_append_right hi] at h
    have := List.eq_of_mem_replicate (List.mem_of_getElem? h)
    simp at this

theorem Uniq.frame {d d' : Doc} (h : Uniq b d) (g : Own b d d') : Uniq b d' := by
  obtain ⟨n, e⟩ := g
  have hl : d.objs.length ≤ d'.objs.length := by
    have := congrArg List.length e
    simp at this; omega
  unfold Uniq
  rw [e]
  exact ⟨fun i i' j h1 h2 => h.1 i i' j (get_some_append h1) (get_some_append h2),
    fun i j h1 => Nat.lt_of_lt_of_le (h.2 i j (get_some_append h1)) hl⟩

/-- A new object becomes the soft mask or palette of the image at `i`. -/
theorem Uniq.give {d : Doc} (h : Uniq b d) (o : Obj) (ho : ownOf b o = none) (i : Nat) (f : Obj → Obj)
    (hf : ∀ o, ownOf b (f o) = ownOf b o ∨ ownOf b (f o) = some d.objs.length) : Uniq b ((d.add o).upd i f) := by
  have key : ∀ k j, (((d.add o).upd i f).objs.map (ownOf b))[k]? = some (some j) →
      (d.objs.map (ownOf b))[k]? = some (some j) ∧ j < d.objs.length ∨ k = i ∧ j = d.objs.length := by
    intro k j hk
    have old : ∀ x, (d.objs ++ [o])[k]? = some x → ownOf b x = some j → (d.objs.map (ownOf b))[k]? = some (some j) := by
      intro x hx hj
      rcases Nat.lt_or_ge k d.objs.length with hlt | hge
      · rw [List.getElem?_append_left hlt] at hx; simp [hx, hj]
      · rw [List.getElem?_append_right hge] at hx
        have := List.mem_of_getElem? hx
        simp at this
        subst this
        rw [ho] at hj; simp at hj
    simp only [Doc.upd, Doc.add, List.getElem?_map, List.getElem?_modify] at hk
    cases hx : (d.objs ++ [o])[k]? with
    | none => rw [hx] at hk; simp at hk
    | some x =>
      rw [hx] at hk
      simp only [Option.map_eq_map, Option.map_some, Option.some.injEq] at hk
      split at hk
      · next hik =>
        rcases hf x with e | e
        · rw [e] at hk
          have := old x hx hk
          exact Or.inl ⟨this, h.2 _ _ this⟩
        · rw [e] at hk
          simp at hk
          exact Or.inr ⟨hik.symm, hk.symm⟩
      · have := old x hx hk
        exact Or.inl ⟨this, h.2 _ _ this⟩
  refine ⟨fun k k' j h1 h2 => ?_, fun k j h1 => ?_⟩
  · rcases key k j h1 with ⟨e, _⟩ | ⟨e, _⟩ <;> rcases key k' j h2 with ⟨e', _⟩ | ⟨e', _⟩
    · exact h.1 k k' j e e'
    · omega
    · omega
    · omega
  · have : ((d.add o).upd i f).objs.length = d.objs.length + 1 := by simp [Doc.upd, Doc.add]
    rw [this]
    rcases key k j h1 with ⟨_, e⟩ | ⟨_, e⟩ <;> omega

theorem own_addEntry (e : Entry) (o : Obj) : ownOf b (Obj.addEntry e o) = ownOf b o := by cases o <;> rfl
theorem own_addFontRel (r : RelFont) (o : Obj) : ownOf b (Obj.addFontRel r o) = ownOf b o := by cases o <;> rfl
theorem own_addCSRel (r : RelCS) (o : Obj) : ownOf b (Obj.addCSRel r o) = ownOf b o := by cases o <;> rfl
theorem own_addXobj (i : Nat) (o : Obj) : ownOf b (Obj.addXobj i o) = ownOf b o := by cases o <;> rfl
theorem own_addGS (i : Nat) (o : Obj) : ownOf b (Obj.addGS i o) = ownOf b o := by cases o <;> rfl
theorem own_addLinkId (i : Nat) (o : Obj) : ownOf b (Obj.addLinkId i o) = ownOf b o := by cases o <;> rfl
theorem own_addOutlineId (i : Nat) (o : Obj) : ownOf b (Obj.addOutlineId i o) = ownOf b o := by cases o <;> rfl
theorem own_setNext (i : Nat) (o : Obj) : ownOf b (Obj.setNext i o) = ownOf b o := by cases o <;> rfl
theorem own_addKid (i : Nat) (o : Obj) : ownOf b (Obj.addKid i o) = ownOf b o := by cases o <;> rfl
theorem own_addContentId (i : Nat) (o : Obj) : ownOf b (Obj.addContentId i o) = ownOf b o := by cases o <;> rfl
theorem own_useOutlines (o : Obj) : ownOf b (Obj.useOutlines o) = ownOf b o := by cases o <;> rfl
theorem own_setSMask (n : Nat) (o : Obj) : ownOf b (Obj.setSMask n o) = ownOf b o ∨ ownOf b (Obj.setSMask n o) = some n := by
  cases b <;> cases o <;> first | exact Or.inl rfl | exact Or.inr rfl
theorem own_setRGB (n : Nat) (o : Obj) : ownOf b (Obj.setRGB n o) = ownOf b o ∨ ownOf b (Obj.setRGB n o) = some n := by
  cases b <;> cases o <;> first | exact Or.inl rfl | exact Or.inr rfl

theorem prepFold_own (l : List Nat) (st : List Obj × Option Nat × Nat) : (l.foldl prepStep st).1.map (ownOf b) = st.1.map (ownOf b) := by
  induction l generalizing st with
  | nil => rfl
  | cons i l ih =>
    rw [List.foldl_cons, ih]
    unfold prepStep
    split
    · exact map_modify' _ (own_addKid _) _ _
    · split
      · exact map_modify' _ (own_addContentId _) _ _
      · rfl
    · rfl
    · rfl

theorem Uniq.stable : Stable (Uniq b) where
  addPage := fun d _ h => h.frame (Own.add d _ rfl)
  mkContent := fun d _ h _ => h.frame (by
    unfold Doc.getContent; split
    · exact Own.refl d
    · exact Own.add d _ rfl)
  entry := fun d i e _ h _ _ => h.frame (Own.upd d i _ (own_addEntry e))
  newGS := fun d k _ h _ _ => h.frame (by
    unfold Doc.extGState; split
    · exact Own.refl d
    · exact (Own.add d (.extGS k) rfl).trans (Own.upd _ procIdx _ (own_addGS _)))
  newTr := fun _ _ _ _ _ h _ _ => h
  setTr := fun _ _ _ h _ => h
  addImage := fun d id m _ h _ => h.frame (Own.add d (.image id m none none) (by cases b <;> rfl))
  register := fun d id m i _ h _ _ => by
    have c0 : Uniq b (d.cacheImage id i) := h.frame (Own.upd d procIdx (Obj.addXobj i) (own_addXobj _))
    have s1 : ∀ e : Doc, Uniq b e → Uniq b (e.addSMaskImage i) := fun e he => he.give .imageSMask rfl i _ (own_setSMask _)
    have s2 : ∀ e : Doc, Uniq b e → Uniq b (e.addPalette i) := fun e he => he.give .deviceRGB rfl i _ (own_setRGB _)
    unfold Doc.register
    simp only []
    split <;> split
    · exact s2 _ (s1 _ c0)
    · exact s2 _ c0
    · exact s1 _ c0
    · exact c0
  group := fun d _ _ h _ => h.frame (Own.add d _ rfl)
  softMask := fun d g _ h _ _ => h.frame (by
    unfold Doc.softMask; split
    · exact Own.refl d
    · exact Own.add d _ rfl)
  addFont := fun d f s _ h => h.frame (by
    unfold Doc.addFont
    simp only []
    have k1 := Own.add (b := b) d .unicodeMap rfl
    have k2 := k1.trans (Own.add _ .fontFile rfl)
    have k3 := k2.trans (Own.add _ (.fontDesc (d.objs.length + 1)) rfl)
    have k4 := k3.trans (Own.add _ (.cidFont (d.objs.length + 2)) rfl)
    split
    · exact (k4.trans (Own.add _ _ rfl)).trans (Own.upd _ procIdx _ (own_addFontRel _))
    · exact k4.trans (Own.add _ _ rfl))
  setFont := fun d f s _ h => h.frame (Own.of_objs (by rw [setFont_fields]))
  addColorSpace := fun d n _ h => h.frame (by
    unfold Doc.addColorSpace
    simp only []
    split
    · exact Own.add d _ rfl
    · exact (Own.add d _ rfl).trans (Own.upd _ procIdx _ (own_addCSRel _)))
  addLink := fun d a _ h => h.frame (by
    unfold Doc.addLink; split
    · exact Own.refl d
    · next p _ => exact (Own.add d (.annot a) rfl).trans (Own.upd _ p _ (own_addLinkId _)))
  setAnchor := fun _ _ _ _ h => h
  addOutline := fun d t _ h => h.frame (by
    unfold Doc.addOutline
    simp only []
    have k := (Own.add (b := b) d (.outline t d.curPageId 2 (d.lastOutline.map (· + 1)) none) rfl).trans
      (Own.upd _ outlinesIdx (Obj.addOutlineId (d.objs.length + 1)) (own_addOutlineId _))
    split
    · exact k
    · next j _ => exact k.trans (Own.upd _ j (Obj.setNext (d.objs.length + 1)) (own_setNext _)))
  imported := fun d _ h => h.frame (Own.add d _ rfl)
  setPage := fun d k _ h => h.frame (Own.of_objs (by rw [setPage_fields]))
  prepare := fun d _ h => h.frame (by
    have h0 : Own b d d.prep0 := by
      unfold Doc.prep0
      have h1 : Own b d (if d.prot then d.add .encryption else d) := by
        split
        · exact Own.add d _ rfl
        · exact Own.refl d
      have h2 : ∀ x : Doc, Own b x x.markOutlines := by
        intro x
        unfold Doc.markOutlines
        split
        · split
          · exact Own.upd _ _ _ own_useOutlines
          · exact Own.refl _
        · exact Own.refl _
      exact h1.trans (h2 _)
    refine h0.trans ⟨0, ?_⟩
    rw [prepare_eq]
    simp [prepFold_own])

theorem Uniq.start (p : Bool) : Uniq b (start p) := by
  have : (Doc.start p).objs.map (ownOf b) = List.replicate 4 none := by rfl
  unfold Uniq
  rw [this]
  have hn : ∀ i j : Nat, (List.replicate 4 (none : Option Nat))[i]? ≠ some (some j) := by
    intro i j h
    have := List.eq_of_mem_replicate (List.mem_of_getElem? h)
    simp at this
  exact ⟨fun i i' j h => absurd h (hn i j), fun i j h => absurd h (hn i j)⟩

theorem reachable_uniq {d : Doc} (h : Reachable d) (b : Bool) : Uniq b d := (reachable_of_stable Uniq.stable Uniq.start h).2

end Verif.Doc
