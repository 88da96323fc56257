import Verif.Lemmas.Doc.Last
import Verif.Lemmas.Doc.Links
import Verif.Lemmas.Doc.Made
import Verif.Lemmas.Doc.Trans
import Verif.Props.DocRefs
import Mathlib.Data.List.Nodup
/- C23, C35, C36, C37: fonts, images, graphics states and colour spaces are looked up and shared by their keys. -/
namespace Verif.Props
open Doc

/-! ### C23: fonts -/

/-- The fonts of a document in order of registration: object number, family, style. -/
def fontsOf (d : Doc) : List (Nat × Nat × Nat) :=
  (List.range d.objs.length).filterMap (fun i => match d.objAt (i + 1) with
    | some (.font f s _ _ _) => some (i + 1, f, s)
    | _ => none)

private theorem findFrom_range (p : Obj → Bool) (l : List Obj) (n : Nat) :
    findFrom p n l = ((List.range l.length).find? (fun i => (l[i]?).any p)).bind
      (fun i => (l[i]?).map (fun o => (n + i, o))) := by
  induction l generalizing n with
  | nil => simp [findFrom]
  | cons a l ih =>
    rw [List.length_cons, List.range_succ_eq_map, List.find?_cons]
    simp only [findFrom, List.getElem?_cons_zero, Option.any_some]
    by_cases ha : p a = true
    · simp [ha]
    · simp only [ha, ih]
      rw [List.find?_map]
      simp only [Function.comp_def, Nat.succ_eq_add_one, List.getElem?_cons_succ]
      cases hf : List.find? (fun i => (l[i]?).any p) (List.range l.length) with
      | none => simp
      | some j =>
        simp only [Option.map_some, Option.bind_some, List.getElem?_cons_succ]
        simp [Nat.add_assoc, Nat.add_comm 1 j]

private theorem find_filterMap {α β : Type} (f : α → Option β) (q : β → Bool) (l : List α) :
    (l.filterMap f).find? q = (l.find? (fun a => (f a).any q)).bind f := by
  induction l with
  | nil => rfl
  | cons a l ih =>
    rw [List.filterMap_cons, List.find?_cons]
    cases hf : f a with
    | none => simp [ih]
    | some b =>
      simp only [List.find?_cons]
      by_cases hq : q b = true
      · simp [hq, hf]
      · simp [hq, ih]

/-- **C23** SetFont picks the font registered first under the family and the style without its underline bit: if there is
one the call succeeds and makes it the current font; if there is none it fails and changes nothing at all. -/
theorem set_font_lookup (d : Doc) (family style : Nat) :
    match (fontsOf d).find? (fun x => x.2.1 = family ∧ x.2.2 = noUnderline style) with
    | some x => (step d (.setFont family style)).2 = .ok ∧
        ∃ c, (step d (.setFont family style)).1 = { d with curFont := some (x.1 - 1, c) } ∧
          ∃ s cid u, d.objAt x.1 = some (.font family s c cid u)
    | none => step d (.setFont family style) = (d, .err) := by
  have key : (fontsOf d).find? (fun x => x.2.1 = family ∧ x.2.2 = noUnderline style) =
      (findFrom (isFont family style) 0 d.objs).bind (fun (x : Nat × Obj) => match x.2 with
        | Obj.font f s _ _ _ => some (x.1 + 1, f, s) | _ => none) := by
    unfold fontsOf
    rw [find_filterMap, findFrom_range]
    simp only [objAt_succ]
    have h1 : (fun a => ((match d.objs[a]? with
        | some (Obj.font f s _ _ _) => some (a + 1, f, s) | _ => none : Option (Nat × Nat × Nat))).any
          (fun x => decide (x.2.1 = family ∧ x.2.2 = noUnderline style))) =
        (fun i => (d.objs[i]?).any (isFont family style)) := by
      funext a
      cases ho : d.objs[a]? with
      | none => rfl
      | some o => cases o <;> simp [isFont]
    rw [h1]
    cases List.find? (fun i => (d.objs[i]?).any (isFont family style)) (List.range d.objs.length) with
    | none => rfl
    | some j =>
      simp only [Option.bind_some]
      cases ho : d.objs[j]? with
      | none => rfl
      | some o => cases o <;> simp
  rw [key]
  simp only [step, Doc.setFont]
  cases hf : findFrom (isFont family style) 0 d.objs with
  | none => simp
  | some x =>
    obtain ⟨i, o⟩ := x
    obtain ⟨j, hj, h1, h2, _⟩ := findFrom_some hf
    rw [Nat.zero_add] at hj
    subst hj
    cases o <;> simp [isFont] at h2
    next f s c cid u =>
    simp only [Option.bind_some]
    refine ⟨by simp, c, by simp, s, cid, u, ?_⟩
    rw [objAt_of h1, h2.1]

/-- **C23** If no font was registered with the underline bit in its style, the name `/F<n>` used when drawing with the
current font denotes, in the resource dictionary, exactly the font SetFont selected. -/
theorem font_name_denotes (d : Doc) (h : Reachable d)
    (hu : ∀ n f s c cid u, d.objAt n = some (.font f s c cid u) → noUnderline s = s) (i c : Nat)
    (hc : d.curFont = some (i, c)) :
    Denotes d.fontNames (c + 1) (i + 1) ∧ (d.objAt (i + 1)).map Obj.kind = some .font := by
  have hul : NoUL d := by
    intro j f s c cid u hj
    unfold Doc.idents at hj
    rw [List.getElem?_map] at hj
    obtain ⟨o, ho, e⟩ := Option.map_eq_some_iff.1 hj
    cases o <;> simp [Obj.ident] at e
    obtain ⟨rfl, rfl, rfl, rfl, rfl⟩ := e
    exact hu _ _ _ _ _ _ (objAt_of ho)
  obtain ⟨r, hr, rfl, rfl⟩ := (reachable_names h).cur hul i c hc
  have hres := reachable_res h
  constructor
  · refine denotes_of' ?_ (List.mem_map.2 ⟨r, hr, rfl⟩)
    have : d.fontNames.map (·.1) = (d.relFonts.map (·.count)).map (· + 1) := by simp [Doc.fontNames]
    rw [this, hres.fontCount]
    rw [List.nodup_iff_pairwise_ne]
    exact List.Pairwise.map _ (fun a b hab => by simpa using hab) (List.nodup_iff_pairwise_ne.1 List.nodup_range)
  · obtain ⟨s, c, u, h1, _⟩ := hres.fontObj r hr
    obtain ⟨x, h2, h3⟩ := ok_of_ident (k := "") h1 rfl
    rw [show d.objAt (r.index + 1) = some x from h2]; exact congrArg some h3

/-- **C23** With the underline bit in a registered style it fails: after registering family 1 with style 4 (underline)
and family 1 with style 0, SetFont(1, 0) selects the second font, but its text is drawn with `/F1`, which denotes the
first font's object: the second font is in no resource dictionary. -/
theorem font_resource_fails : ∃ h : List Op, let d := exec (start false) h
    outcomes (start false) h = [.ok, .ok, .ok, .ok, .ok, .ok, .ok] ∧ d.curFont = some (18, 0) ∧
    d.fontNames = [(1, 9), (2, 14)] ∧ d.objAt 19 = some (.font 2 0 0 17 14) ∧ d.objAt 9 = some (.font 1 0 0 7 4) := by
  exact ⟨[.addFont 1 0 true, .addFont 2 4 true, .addFont 2 0 true, .addPage, .setFont 2 0, .text 1, .compile],
    by decide +kernel⟩

example : fontsOf demo = [(9, 1, 0)] ∧ demo.curFont = some (8, 0) := by decide +kernel

/-! ### C35: images -/

/-- Every image call of the history comes after an AddPage. -/
def imagesOnPages : Bool → List Op → Bool
  | _, [] => true
  | _, .addPage :: h => imagesOnPages true h
  | p, .image _ _ :: h => p && imagesOnPages p h
  | p, .imageOpt _ _ _ _ :: h => p && imagesOnPages p h
  | p, _ :: h => imagesOnPages p h

private theorem exec_ip (h : List Op) (d : Doc) (p : Bool) (hp : p = true → d.curPage.isSome = true) (hi : IP d)
    (hh : imagesOnPages p h = true) : IP (exec d h) := by
  induction h generalizing d p with
  | nil => exact hi
  | cons op h ih =>
    have mono : ∀ op, d.curPage.isSome = true → (step d op).1.curPage.isSome = true := by
      intro op hc
      exact step_page d op hc
    have hstep : op.isImage = true → d.curPage.isSome = true := by
      intro him
      cases op <;> simp [Op.isImage] at him <;> · simp [imagesOnPages] at hh; exact hp hh.1
    cases op <;> simp only [imagesOnPages, Bool.and_eq_true] at hh <;>
      first
      | exact ih _ true (fun _ => rfl) (hi.step _ hstep) hh
      | exact ih _ p (fun hpt => mono _ (hp hpt)) (hi.step _ hstep) hh
      | exact ih _ p (fun hpt => mono _ (hp hpt)) (hi.step _ hstep) hh.2

/-- **C35** However often and on however many pages images are drawn (directly or as masks), there is one image object per
id and none besides: the ids of the image objects are all different. For histories whose image calls come after the
first AddPage (an image call before it panics, see `orphan_image_fails`). -/
theorem one_object_per_image (prot : Bool) (h : List Op) (hh : imagesOnPages false h = true) :
    ((exec (start prot) h).imageObjs.map (·.1)).Nodup ∧ ((exec (start prot) h).imageObjs.map (·.2)).Nodup := by
  have hi : IP (exec (start prot) h) := exec_ip h (start prot) false (by simp) (by unfold IP; cases prot <;> decide +kernel) hh
  have hr : Reachable (exec (start prot) h) := ⟨prot, h, rfl⟩
  rw [imageObjs_eq]
  constructor
  · rw [hi, List.map_map]
    exact (reachable_res hr).imgKeys
  · rw [← imageObjs_eq]
    unfold Doc.imageObjs
    rw [List.map_filterMap]
    refine List.Nodup.filterMap ?_ List.nodup_range
    intro a b c ha hb
    simp only [Option.mem_def, Option.map_eq_some_iff] at ha hb
    obtain ⟨x, hx, rfl⟩ := ha
    obtain ⟨y, hy, hxy⟩ := hb
    have e1 : x.2 = a + 1 := by split at hx <;> simp at hx; rw [← hx]
    have e2 : y.2 = b + 1 := by split at hy <;> simp at hy; rw [← hy]
    omega

/-- **C35** Drawing the image with a given id names the object with that id: whatever happened before, an entry of a
successful Image/ImageByHolder call names, in the resource dictionary, an image object carrying exactly this id. -/
theorem drawn_image_is_the_one (d : Doc) (h : Reachable d) (tag : Nat) (img : Img)
    (hok : (step d (.image tag img)).2 = .ok) :
    ∃ e k m s r, (step d (.image tag img)).1.lastEntry = some e ∧ e.tag = tag ∧ e.xobj = some k ∧
      Denotes (step d (.image tag img)).1.xobjNames k k ∧
      (step d (.image tag img)).1.objAt k = some (.image img.id m s r) := by
  exact image_entry h tag img hok

/-- **C35** The same through ImageByHolderWithOptions, with any transparency and any mask. -/
theorem drawn_masked_image_is_the_one (d : Doc) (h : Reachable d) (tag : Nat) (img : Img) (tr : Option Tr)
    (mask : Option (Img × Option Tr)) (hok : (step d (.imageOpt tag img tr mask)).2 = .ok) :
    ∃ e k m s r, (step d (.imageOpt tag img tr mask)).1.lastEntry = some e ∧ e.tag = tag ∧ e.xobj = some k ∧
      Denotes (step d (.imageOpt tag img tr mask)).1.xobjNames k k ∧
      (step d (.imageOpt tag img tr mask)).1.objAt k = some (.image img.id m s r) := by
  exact imageOpt_entry h tag img tr mask hok

/-- **C35** An image call before the first page panics and leaves an image object nobody refers to; drawing the image
later adds a second object with the same id. -/
theorem orphan_image_fails : ∃ h : List Op, outcomes (start false) h = [.panic, .ok, .ok] ∧
    (exec (start false) h).imageObjs = [(1, 5), (1, 8)] :=
  ⟨[.image 1 ⟨1, some (false, false)⟩, .addPage, .image 2 ⟨1, some (false, false)⟩], by decide +kernel⟩

/-- **C35** An image with an alpha channel used first as a mask and then drawn: the one object embedded is marked as a
mask, so what is drawn is a grey image without its own soft mask. -/
theorem mask_then_drawn_fails : ∃ h : List Op, outcomes (start false) h = [.ok, .ok, .ok] ∧
    ∃ e, (exec (start false) h).lastEntry = some e ∧ e.xobj = some 6 ∧
      (exec (start false) h).objAt 6 = some (.image 1 ⟨true, true, false, false⟩ none none) :=
  ⟨[.addPage, .imageOpt 1 ⟨2, some (false, false)⟩ none (some (⟨1, some (true, false)⟩, none)),
    .image 2 ⟨1, some (true, false)⟩], by decide +kernel⟩

/-- **C35** An image with an alpha channel first drawn through a mask and then drawn plainly: the one object embedded keeps
the flag of the first call, and never refers to its own soft mask (which is written all the same). -/
theorem masked_then_drawn_fails : ∃ h : List Op, outcomes (start false) h = [.ok, .ok, .ok] ∧
    ∃ e, (exec (start false) h).lastEntry = some e ∧ e.xobj = some 11 ∧
      (exec (start false) h).objAt 11 = some (.image 2 ⟨false, true, false, true⟩ (some 11) none) ∧
      refs (exec (start false) h) (.image 2 ⟨false, true, false, true⟩ (some 11) none) = [] :=
  ⟨[.addPage, .imageOpt 1 ⟨2, some (true, false)⟩ none (some (⟨1, some (true, false)⟩, none)),
    .image 2 ⟨2, some (true, false)⟩], by decide +kernel⟩

example : imagesOnPages false demoHistory = true ∧ demo.imageObjs = [(5, 12), (11, 17), (6, 21)] := by decide +kernel

/-! ### C36: graphics states -/

/-- The graphics states of a document: key and object number. -/
def statesOf (d : Doc) : List (GKey × Nat) :=
  (List.range d.objs.length).filterMap (fun i => match d.objAt (i + 1) with
    | some (.extGS k) => some (k, i + 1)
    | _ => none)

/-- **C36** There is at most one graphics state object per setting (alpha to three decimals and blend mode, or soft mask),
so equal settings share one and different settings never do. -/
theorem one_state_per_setting (d : Doc) (h : Reachable d) : ((statesOf d).map (·.1)).Nodup ∧ ((statesOf d).map (·.2)).Nodup := by
  have hg := reachable_gs h
  have hk := (reachable_res h).gsKeys
  have b := reachable_base h
  have mem : ∀ i k, (match d.objAt (i + 1) with | some (.extGS k) => some (k, i + 1) | _ => none : Option (GKey × Nat)) = some k →
      (k.1, i) ∈ d.gss ∧ k.2 = i + 1 := by
    intro i k hi
    split at hi
    · next k' ho =>
      simp only [Option.some.injEq] at hi
      subst hi
      rw [objAt_succ] at ho
      exact ⟨hg i k' (ident_at ho), rfl⟩
    · simp at hi
  have inj : ∀ k i j, (k, i) ∈ d.gss → (k, j) ∈ d.gss → i = j := by
    intro k i j h1 h2
    revert hk h1 h2
    generalize d.gss = l
    intro hk h1 h2
    induction l with
    | nil => simp at h1
    | cons x l ih =>
      simp only [List.map_cons, List.nodup_cons] at hk
      rcases List.mem_cons.1 h1 with e1 | e1 <;> rcases List.mem_cons.1 h2 with e2 | e2
      · rw [← e2] at e1; simpa using e1
      · subst e1; exact absurd (List.mem_map.2 ⟨(k, j), e2, rfl⟩) hk.1
      · subst e2; exact absurd (List.mem_map.2 ⟨(k, i), e1, rfl⟩) hk.1
      · exact ih hk.2 e1 e2
  constructor
  · unfold statesOf
    rw [List.map_filterMap]
    refine List.Nodup.filterMap ?_ List.nodup_range
    intro i j k hi hj
    simp only [Option.mem_def, Option.map_eq_some_iff] at hi hj
    obtain ⟨x, hx, rfl⟩ := hi
    obtain ⟨y, hy, e⟩ := hj
    exact inj x.1 i j (mem i x hx).1 (e ▸ (mem j y hy).1)
  · unfold statesOf
    rw [List.map_filterMap]
    refine List.Nodup.filterMap ?_ List.nodup_range
    intro i j k hi hj
    simp only [Option.mem_def, Option.map_eq_some_iff] at hi hj
    obtain ⟨x, hx, rfl⟩ := hi
    obtain ⟨y, hy, e⟩ := hj
    have := (mem i x hx).2
    have := (mem j y hy).2
    omega

/-- **C36** SetTransparency with a setting that is not fully opaque makes the current graphics state (used by the calls
that follow) the one with exactly this alpha and blend mode. -/
theorem set_transparency_selects (d : Doc) (h : Reachable d) (t : Tr) (ht : t.isOne = false) :
    ∃ n, (step d (.setTransparency t)).1.curTr = some n ∧
      (step d (.setTransparency t)).1.objAt n = some (.extGS (.alpha t.alpha3 t.blend)) := by
  exact saveTransparency_selects h t ht

/-- **C36** A per-call setting is used for the call: the entry drawn names the graphics state with exactly this alpha and
blend mode. -/
theorem call_transparency_used (d : Doc) (h : Reachable d) (tag : Nat) (t : Tr) (ht : t.isOne = false)
    (hok : (step d (.drawTr tag (some t))).2 = .ok) :
    ∃ e n, (step d (.drawTr tag (some t))).1.lastEntry = some e ∧ e.tag = tag ∧ e.gs = [n] ∧
      (step d (.drawTr tag (some t))).1.objAt n = some (.extGS (.alpha t.alpha3 t.blend)) := by
  exact drawTr_entry h tag t ht hok

private theorem trOK_start (prot : Bool) : TrOK (start prot) none := by
  constructor
  · rfl
  · intro x hx; simp [start] at hx

/-- **C36** The transparency in effect is used: after any calls `h`, a successful Line/Polygon/rectangle call without a
setting of its own draws with the graphics state of the last SetTransparency (with none if there is none, if it was fully
opaque, or if ClearTransparency came after it); with a setting of its own it draws with that one. Provided no setting is
almost opaque (see `opaque_collides_fails`). -/
theorem transparency_in_effect (prot : Bool) (h : List Op) (tag : Nat) (tr : Option Tr)
    (hs : ∀ op ∈ h ++ [.drawTr tag tr], ∀ t ∈ op.settings, t.sharp)
    (hok : (step (exec (start prot) h) (.drawTr tag tr)).2 = .ok) :
    ∃ e, (step (exec (start prot) h) (.drawTr tag tr)).1.lastEntry = some e ∧ e.tag = tag ∧
      (step (exec (start prot) h) (.drawTr tag tr)).1.AppliesAlpha e.gs (callSetting (inEffect none h) tr) := by
  have hr : Reachable (exec (start prot) h) := ⟨prot, h, rfl⟩
  have ok := exec_trOK h (⟨prot, [], rfl⟩ : Reachable (start prot)) (trOK_start prot) (fun op ho => hs op (by simp [ho]))
  have ht : ∀ t ∈ tr.toList, t.sharp := hs (.drawTr tag tr) (by simp)
  have S : Stable0 (fun _ : Doc => True) := by constructor <;> intros <;> trivial
  obtain ⟨b1, _⟩ := both_cachedTransparency S ⟨reachable_base hr, trivial⟩ tr
  obtain ⟨h1, h2⟩ := appendPaged_applies b1.1
    { tag := tag, gs := ((exec (start prot) h).cachedTransparency tr).2.toList }
    (cachedTransparency_applies (reachable_base hr) ok tr ht) hok
  exact ⟨_, h1, rfl, h2⟩

/-- **C36** The same for the cells of CellWithOption and MultiCellWithOption. -/
theorem cell_transparency_in_effect (prot : Bool) (h : List Op) (tag : Nat) (tr : Option Tr)
    (hs : ∀ op ∈ h ++ [.cell tag tr], ∀ t ∈ op.settings, t.sharp)
    (hok : (step (exec (start prot) h) (.cell tag tr)).2 = .ok) :
    ∃ e, (step (exec (start prot) h) (.cell tag tr)).1.lastEntry = some e ∧ e.tag = tag ∧
      (step (exec (start prot) h) (.cell tag tr)).1.AppliesAlpha e.gs (callSetting (inEffect none h) tr) := by
  have hr : Reachable (exec (start prot) h) := ⟨prot, h, rfl⟩
  have ok := exec_trOK h (⟨prot, [], rfl⟩ : Reachable (start prot)) (trOK_start prot) (fun op ho => hs op (by simp [ho]))
  have ht : ∀ t ∈ tr.toList, t.sharp := hs (.cell tag tr) (by simp)
  have S : Stable0 (fun _ : Doc => True) := by constructor <;> intros <;> trivial
  obtain ⟨b1, _⟩ := both_cachedTransparency S ⟨reachable_base hr, trivial⟩ tr
  simp only [step] at hok ⊢
  cases hf : ((exec (start prot) h).cachedTransparency tr).1.curFont with
  | none => rw [hf] at hok; simp at hok
  | some fc =>
    rw [hf] at hok
    obtain ⟨h1, h2⟩ := appendPaged_applies b1.1
      { tag := tag, font := some (fc.2 + 1), gs := ((exec (start prot) h).cachedTransparency tr).2.toList }
      (cachedTransparency_applies (reachable_base hr) ok tr ht) hok
    exact ⟨_, h1, rfl, h2⟩

/-- **C36** An image drawn by ImageByHolderWithOptions is drawn with its transparency (its own, else the one in effect)
and, if it has a mask, with exactly one soft mask: one whose form draws the image given as mask, with the mask's own
transparency (or the one in effect). -/
theorem image_transparency_and_mask (prot : Bool) (h : List Op) (tag : Nat) (img : Img) (tr : Option Tr)
    (mask : Option (Img × Option Tr)) (hs : ∀ op ∈ h ++ [.imageOpt tag img tr mask], ∀ t ∈ op.settings, t.sharp)
    (hok : (step (exec (start prot) h) (.imageOpt tag img tr mask)).2 = .ok) :
    ∃ e gs1 gs2, (step (exec (start prot) h) (.imageOpt tag img tr mask)).1.lastEntry = some e ∧ e.tag = tag ∧
      e.gs = gs1 ++ gs2 ∧
      (step (exec (start prot) h) (.imageOpt tag img tr mask)).1.AppliesAlpha gs1 (callSetting (inEffect none h) tr) ∧
      (match mask with
       | none => gs2 = []
       | some (m, mtr) => ∃ n, gs2 = [n] ∧
          (step (exec (start prot) h) (.imageOpt tag img tr mask)).1.MasksWith n m.id (callSetting (inEffect none h) mtr)) := by
  have hr : Reachable (exec (start prot) h) := ⟨prot, h, rfl⟩
  have ok := exec_trOK h (⟨prot, [], rfl⟩ : Reachable (start prot)) (trOK_start prot) (fun op ho => hs op (by simp [ho]))
  obtain ⟨e, gs1, gs2, h1, h2, h3, h4, h5⟩ := imageOpt_applies hr ok tag img tr mask (hs _ (by simp)) hok
  refine ⟨e, gs1, gs2, h1, h2, h3, h4, ?_⟩
  cases mask with
  | none => exact h5
  | some mm =>
    obtain ⟨m, mtr⟩ := mm
    obtain ⟨n, gs, h6, ⟨i, m', g, x, info, rfl, i1, i2, i3, i4⟩, h7⟩ := h5
    generalize (step (exec (start prot) h) (.imageOpt tag img tr (some (m, mtr)))).1 = d at *
    have back : ∀ {j : Nat} {o : Obj}, d.idents[j]? = some o → ∃ o', d.objAt (j + 1) = some o' ∧ o'.ident = o := by
      intro j o hj
      unfold Doc.idents at hj
      rw [List.getElem?_map] at hj
      obtain ⟨o', ho, e⟩ := Option.map_eq_some_iff.1 hj
      exact ⟨o', objAt_of ho, e⟩
    obtain ⟨o1, p1, q1⟩ := back i1
    obtain ⟨o2, p2, q2⟩ := back i2
    obtain ⟨o3, p3, q3⟩ := back i3
    obtain ⟨o4, p4, q4⟩ := back i4
    cases o1 <;> simp [Obj.ident] at q1
    cases o2 <;> simp [Obj.ident] at q2
    cases o3 <;> simp [Obj.ident] at q3
    cases o4 <;> simp [Obj.ident] at q4
    next a1 a2 a3 a4 =>
    obtain ⟨rfl, rfl⟩ := q4
    subst q1 q2 q3
    exact ⟨i + 1, h6, _, _, { tag := 0, xobj := some (x + 1), gs := gs, mask := _ }, x + 1, _, _, _, p1, p2, p3, h7, rfl, p4⟩

example : ∃ (h : List Op), (∀ op ∈ h ++ [Op.drawTr 7 none], ∀ t ∈ op.settings, t.sharp) ∧
    (step (exec (start false) h) (.drawTr 7 none)).2 = .ok ∧ inEffect none h = some (250, 1) ∧
    ((step (exec (start false) h) (.drawTr 7 none)).1.lastEntry).map (·.gs) = some [8] := by
  refine ⟨[.addPage, .setTransparency ⟨500, false, 0⟩, .drawTr 1 none, .setTransparency ⟨1000, true, 0⟩,
    .setTransparency ⟨250, false, 1⟩, .drawTr 2 (some ⟨500, false, 0⟩)], ?_⟩
  unfold Tr.sharp; decide +kernel

example : ∃ (h : List Op), (step (exec (start false) h)
    (.imageOpt 7 ⟨1, some (false, false)⟩ none (some (⟨2, some (false, false)⟩, some ⟨500, false, 0⟩)))).2 = .ok ∧
    inEffect none h = some (250, 1) ∧ ((step (exec (start false) h)
    (.imageOpt 7 ⟨1, some (false, false)⟩ none (some (⟨2, some (false, false)⟩, some ⟨500, false, 0⟩)))).1.lastEntry).map (·.gs)
      = some [6, 12] := by
  refine ⟨[.addPage, .setTransparency ⟨250, false, 1⟩], ?_⟩
  decide +kernel

/-- **C36** A fully opaque setting after an almost opaque one (alpha rounding to 1.000 but not 1) is not opaque: it reuses
the earlier graphics state, because the keys print alike. -/
theorem opaque_collides_fails : ∃ h : List Op,
    (exec (start false) (h ++ [.setTransparency ⟨1000, true, 0⟩])).curTr = some 5 ∧
    (exec (start false) [.setTransparency ⟨1000, true, 0⟩]).curTr = none :=
  ⟨[.setTransparency ⟨1000, false, 0⟩], by decide +kernel⟩

/-- **C36** A blend mode with alpha 1 is not used: an opaque setting with blend mode Multiply (7) has no graphics state, what is drawn
after it is drawn as if no blend mode had been asked for. -/
theorem blend_opaque_fails : (step (exec (start false) [.addPage]) (.setTransparency ⟨1000, true, 7⟩)).2 = .ok ∧
    (exec (start false) [.addPage, .setTransparency ⟨1000, true, 7⟩]).curTr = none ∧
    statesOf (exec (start false) [.addPage, .setTransparency ⟨1000, true, 7⟩]) = [] := by
  decide +kernel

example : statesOf demo = [(.alpha 500 0, 15), (.alpha 250 1, 16), (.smask 18, 20)] := by decide +kernel

/-! ### C37: colour spaces -/

/-- **C37** AddColorSpaceRGB/CMYK succeeds exactly if no colour space was registered under that name. -/
theorem add_color_space (d : Doc) (h : Reachable d) (name : Nat) :
    (step d (.addColorSpace name)).2 = .ok ↔ ∀ n c, d.objAt n ≠ some (.colorSpace name c) := by
  exact addColorSpace_ok_iff h name

/-- **C37** SetColorSpace succeeds exactly if a colour space is registered under the name; otherwise it changes nothing. -/
theorem set_color_space_ok (d : Doc) (tag name : Nat) :
    ((step d (.setColorSpace tag name)).2 = .ok ↔ ∃ n c, d.objAt n = some (.colorSpace name c)) ∧
    ((step d (.setColorSpace tag name)).2 ≠ .ok → step d (.setColorSpace tag name) = (d, .err)) := by
  exact setColorSpace_ok_iff d tag name

/-- **C37** What SetColorSpace draws with is the colour space registered successfully under that name: the name `/CS<k>`
of the entry denotes, in the resource dictionary, an object carrying the name, and it is the first one so named. -/
theorem set_color_space_denotes (d : Doc) (h : Reachable d) (tag name : Nat)
    (hok : (step d (.setColorSpace tag name)).2 = .ok) :
    ∃ e k n c, (step d (.setColorSpace tag name)).1.lastEntry = some e ∧ e.tag = tag ∧ e.cs = some k ∧
      Denotes (step d (.setColorSpace tag name)).1.csNames k n ∧ d.objAt n = some (.colorSpace name c) ∧
      ∀ m c', m < n → d.objAt m ≠ some (.colorSpace name c') := by
  exact setColorSpace_entry h tag name hok

/-- **C37** A rejected registration still leaves an object in the file (gopdf.go 2546 adds it before the check). -/
theorem duplicate_left_fails : ∃ h : List Op, outcomes (start false) h = [.ok, .err] ∧
    (exec (start false) h).objAt 5 = some (.colorSpace 1 0) ∧ (exec (start false) h).objAt 6 = some (.colorSpace 1 0) ∧
    (exec (start false) h).csNames = [(1, 5)] :=
  ⟨[.addColorSpace 1, .addColorSpace 1], by decide +kernel⟩

example : (step demo (.setColorSpace 1 3)).2 = .ok ∧ (step demo (.addColorSpace 4)).2 = .ok ∧
    (step demo (.addColorSpace 3)).2 = .err := by decide +kernel

end Verif.Props
