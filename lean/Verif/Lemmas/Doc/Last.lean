import Verif.Lemmas.Doc.Images
import Verif.Lemmas.Doc.Links
import Verif.Lemmas.Doc.Names
import Verif.Lemmas.Doc.Made
import Mathlib.Order.Nat
import Mathlib.Data.Nat.Find
/- The entry appended last to the current stream. -/
namespace Verif.Doc

def Obj.es : Obj → Option (List Entry)
  | .content es => some es
  | _ => none

theorem lastEntry_eq (d : Doc) : d.lastEntry = d.content.bind (fun i => (d.objs[i]?.bind Obj.es).bind List.getLast?) := by
  unfold Doc.lastEntry
  cases d.content with
  | none => rfl
  | some i =>
    simp only [Option.bind_some]
    cases ho : d.objs[i]? with
    | none => rfl
    | some o => cases o <;> rfl

theorem lastEntry_upd (d : Doc) (i : Nat) (f : Obj → Obj) (hf : ∀ o, (f o).es = o.es) : (d.upd i f).lastEntry = d.lastEntry := by
  rw [lastEntry_eq, lastEntry_eq]
  simp only [Doc.upd]
  congr 1
  funext j
  rw [List.getElem?_modify]
  cases d.objs[j]? with
  | none => simp
  | some o => by_cases hij : i = j <;> simp [hij, hf]

theorem lastEntry_add {d : Doc} (h : ∀ i, d.content = some i → i < d.objs.length) (o : Obj) : (d.add o).lastEntry = d.lastEntry := by
  rw [lastEntry_eq, lastEntry_eq]
  simp only [Doc.add]
  cases hc : d.content with
  | none => rfl
  | some i => simp only [Option.bind_some]; rw [List.getElem?_append_left (h i hc)]

theorem Base.contentLt {d : Doc} (b : Base d) : ∀ i, d.content = some i → i < d.objs.length := by
  intro i hi
  have := lt_of_get (b.content i hi)
  rwa [idents_len] at this

theorem lastEntry_append {d : Doc} (b : Base d) (e : Entry) : (d.append e).lastEntry = some e ∧
    ∀ i, (d.append e).content = some i → i < (d.append e).objs.length := by
  unfold Doc.append Doc.getContent
  cases hc : d.content with
  | some i =>
    have hid := b.content i hc
    unfold Doc.idents at hid
    rw [List.getElem?_map] at hid
    obtain ⟨o, ho, he⟩ := Option.map_eq_some_iff.1 hid
    cases o <;> simp [Obj.ident] at he
    constructor
    · rw [lastEntry_eq]
      simp only [Doc.upd, hc, Option.bind_some]
      rw [List.getElem?_modify, ho]
      simp [Obj.addEntry, Obj.es]
    · simp only [Doc.upd, hc]
      intro j hj
      cases hj
      rw [List.length_modify]; exact lt_of_get ho
  | none =>
    constructor
    · rw [lastEntry_eq]
      simp only [Doc.upd, Doc.add, Option.bind_some]
      rw [List.getElem?_modify, List.getElem?_append_right (Nat.le_refl _)]
      simp [Obj.addEntry, Obj.es]
    · simp only [Doc.upd, Doc.add]
      intro j hj
      cases hj
      simp

theorem lastEntry_register {d : Doc} (h : ∀ i, d.content = some i → i < d.objs.length) (id i : Nat) (a x : Bool) :
    (d.register id i a x).lastEntry = d.lastEntry := by
  have e1 : (d.cacheImage id i).lastEntry = d.lastEntry := by
    unfold Doc.cacheImage
    rw [show Doc.lastEntry { d.upd procIdx (Obj.addXobj i) with imgs := d.imgs ++ [(id, i)] } =
      (d.upd procIdx (Obj.addXobj i)).lastEntry from rfl]
    exact lastEntry_upd _ _ _ (by intro o; cases o <;> rfl)
  have c1 : ∀ j, (d.cacheImage id i).content = some j → j < (d.cacheImage id i).objs.length := by
    intro j hj
    simp only [Doc.cacheImage, Doc.upd, List.length_modify]
    exact h j hj
  have hs : ∀ (d : Doc), (∀ i, d.content = some i → i < d.objs.length) → (d.addSMaskImage i).lastEntry = d.lastEntry := by
    intro d h
    unfold Doc.addSMaskImage
    rw [lastEntry_upd _ _ _ (by intro o; cases o <;> rfl), lastEntry_add h]
  have cs : ∀ (d : Doc), (∀ i, d.content = some i → i < d.objs.length) → (∀ j, (d.addSMaskImage i).content = some j → j < (d.addSMaskImage i).objs.length) := by
    intro d h j hj
    have := h j hj
    simp only [Doc.addSMaskImage, Doc.upd, Doc.add, List.length_modify, List.length_append]
    omega
  have hp : ∀ (d : Doc), (∀ i, d.content = some i → i < d.objs.length) → (d.addPalette i).lastEntry = d.lastEntry := by
    intro d h
    unfold Doc.addPalette
    rw [lastEntry_upd _ _ _ (by intro o; cases o <;> rfl), lastEntry_add h]
  unfold Doc.register
  simp only []
  by_cases ha : a = true <;> by_cases hx : x = true <;> simp only [ha, hx, if_true, Bool.false_eq_true, if_false]
  · rw [hp _ (cs _ c1), hs _ c1, e1]
  · rw [hs _ c1, e1]
  · rw [hp _ c1, e1]
  · exact e1

/-- What a successful image call appends. -/
theorem image_entry0 {d : Doc} (b : Base d) (tag : Nat) (img : Img) (gs : List Nat)
    (hok : (d.imageByHolder tag img gs split).2 = .ok) :
    ∃ e i, (d.imageByHolder tag img gs split).1.lastEntry = some e ∧ e.tag = tag ∧ e.xobj = some (i + 1) ∧
      e.gs = gs ∧ (img.id, i) ∈ (d.imageByHolder tag img gs split).1.imgs := by
  unfold Doc.imageByHolder at hok ⊢
  cases hi : assoc d.imgs img.id with
  | some i =>
    rw [hi] at hok
    simp only [] at hok ⊢
    unfold Doc.appendPaged at hok ⊢
    split at hok
    · simp at hok
    · next hc =>
      rw [if_neg hc]
      refine ⟨_, i, (lastEntry_append b _).1, rfl, rfl, rfl, ?_⟩
      have : (d.append { tag := tag, xobj := some (i + 1), gs := gs }).imgs = d.imgs := by
        unfold Doc.append Doc.getContent; cases d.content <;> rfl
      rw [this]; exact assoc_mem hi
  | none =>
    rw [hi] at hok
    simp only [] at hok ⊢
    cases hp : img.parsed with
    | none => rw [hp] at hok; simp at hok
    | some ax =>
      obtain ⟨a, x⟩ := ax
      rw [hp] at hok
      simp only [] at hok ⊢
      have b' : Base (d.add (.image img.id ⟨false, a, x, split⟩ none none)) :=
        b.ext (Ext.add _ _) rfl rfl rfl rfl rfl rfl rfl rfl rfl rfl
      unfold Doc.appendPaged at hok ⊢
      by_cases hc : (d.add (.image img.id ⟨false, a, x, split⟩ none none)).curPage.isNone = true
      · rw [if_pos hc] at hok; simp at hok
      · rw [if_neg hc]
        simp only []
        obtain ⟨h1, h2⟩ := lastEntry_append b' { tag := tag, xobj := some (d.objs.length + 1), gs := gs }
        refine ⟨_, d.objs.length, (lastEntry_register h2 _ _ _ _).trans h1, rfl, rfl, rfl, ?_⟩
        rw [register_fields]
        simp

theorem step_page (d : Doc) (op : Op) (hc : d.curPage.isSome = true) : (step d op).1.curPage.isSome = true := by
  have h := step_curPageId d op
  unfold Doc.curPageId at h
  cases h2 : (step d op).1.curPage with
  | some p => rfl
  | none =>
    exfalso
    obtain ⟨p, hp⟩ := Option.isSome_iff_exists.1 hc
    rw [h2, hp] at h
    simp only [Doc.nextID] at h
    split at h <;> omega

theorem denotes_of' {names : List (Nat × Nat)} {n m : Nat} (hn : (names.map (·.1)).Nodup) (hm : (n, m) ∈ names) :
    Denotes names n m := by
  unfold Denotes
  induction names with
  | nil => simp at hm
  | cons p l ih =>
    simp only [List.map_cons, List.nodup_cons] at hn
    rcases List.mem_cons.1 hm with h | h
    · subst h
      have : l.filter (fun p => p.1 = n) = [] := by
        rw [List.filter_eq_nil_iff]
        intro q hq
        simp
        intro e
        exact hn.1 (List.mem_map.2 ⟨q, hq, e⟩)
      simp [this]
    · have hne : p.1 ≠ n := by
        intro e
        exact hn.1 (e ▸ List.mem_map.2 ⟨(n, m), h, rfl⟩)
      simp [hne, ih hn.2 h]

theorem nodup_snd {α : Type} {l : List (α × Nat)} (hk : (l.map (·.1)).Nodup)
    (hinj : ∀ x ∈ l, ∀ y ∈ l, x.2 = y.2 → x.1 = y.1) : (l.map (·.2)).Nodup := by
  induction l with
  | nil => simp
  | cons x l ih =>
    simp only [List.map_cons, List.nodup_cons] at hk ⊢
    refine ⟨?_, ih hk.2 (fun a ha c hc => hinj a (List.mem_cons_of_mem _ ha) c (List.mem_cons_of_mem _ hc))⟩
    intro hm
    obtain ⟨y, hy, e⟩ := List.mem_map.1 hm
    have := hinj y (List.mem_cons_of_mem _ hy) x (by simp) e
    exact hk.1 (List.mem_map.2 ⟨y, hy, this⟩)

theorem nodup_add_one {l : List Nat} (h : l.Nodup) : (l.map (· + 1)).Nodup := by
  rw [List.nodup_iff_pairwise_ne] at h ⊢
  exact List.Pairwise.map _ (fun a b hab => by simpa using hab) h

/-- A registered image's name denotes its object. -/
theorem img_denotes {d : Doc} (h : Reachable d) {id i : Nat} (hm : (id, i) ∈ d.imgs) :
    Denotes d.xobjNames (i + 1) (i + 1) ∧ ∃ m s r, d.objAt (i + 1) = some (.image id m s r) := by
  have hres := reachable_res h
  have b := reachable_base h
  constructor
  · refine denotes_of' ?_ (List.mem_map.2 ⟨i, ?_, rfl⟩)
    · have : d.xobjNames.map (·.1) = d.relXobjs.map (· + 1) := by simp [Doc.xobjNames]
      rw [this]
      refine nodup_add_one ?_
      rw [hres.xobjs]
      refine nodup_snd hres.imgKeys ?_
      intro x hx y hy e
      obtain ⟨m, h1⟩ := b.imgs x.1 x.2 hx
      obtain ⟨m', h2⟩ := b.imgs y.1 y.2 hy
      rw [e, h2] at h1
      simp at h1
      exact h1.1.symm
    · rw [hres.xobjs]; exact List.mem_map.2 ⟨_, hm, rfl⟩
  · obtain ⟨m, s, r, h1, _⟩ := reachable_imgs h id i hm
    exact ⟨m, s, r, objAt_of h1⟩

theorem image_entry {d : Doc} (h : Reachable d) (tag : Nat) (img : Img) (hok : (step d (.image tag img)).2 = .ok) :
    ∃ e k m s r, (step d (.image tag img)).1.lastEntry = some e ∧ e.tag = tag ∧ e.xobj = some k ∧
      Denotes (step d (.image tag img)).1.xobjNames k k ∧
      (step d (.image tag img)).1.objAt k = some (.image img.id m s r) := by
  obtain ⟨e, i, h1, h2, h3, _, h5⟩ := image_entry0 (reachable_base h) tag img [] hok
  have hr : Reachable (step d (.image tag img)).1 := by
    obtain ⟨p, ops, rfl⟩ := h
    exact ⟨p, ops ++ [.image tag img], by rw [exec_append]; rfl⟩
  obtain ⟨h6, m, s, r, h7⟩ := img_denotes hr h5
  exact ⟨e, i + 1, m, s, r, h1, h2, h3, h6, h7⟩

theorem Reachable.step {d : Doc} (h : Reachable d) (op : Op) : Reachable (step d op).1 := by
  obtain ⟨p, ops, rfl⟩ := h
  exact ⟨p, ops ++ [op], by rw [exec_append]; rfl⟩

theorem maskHolder_ok {tag : Nat} (d : Doc) (img : Img) (gs : List Nat) (h : (d.maskHolder tag img gs).2.2 = .ok) :
    (d.maskHolder tag img gs).2.1.isSome = true := by
  unfold Doc.maskHolder at h ⊢
  split at h
  · split at h
    · simp at h
    · next hc => simp [hc]
  · split at h
    · simp at h
    · simp only [] at h ⊢
      split at h
      · simp at h
      · next hc => rw [if_neg hc]; rfl

theorem imageOpt_entry {d : Doc} (h : Reachable d) (tag : Nat) (img : Img) (tr : Option Tr)
    (mask : Option (Img × Option Tr)) (hok : (Verif.Doc.step d (.imageOpt tag img tr mask)).2 = .ok) :
    ∃ e k m s r, (Verif.Doc.step d (.imageOpt tag img tr mask)).1.lastEntry = some e ∧ e.tag = tag ∧ e.xobj = some k ∧
      Denotes (Verif.Doc.step d (.imageOpt tag img tr mask)).1.xobjNames k k ∧
      (Verif.Doc.step d (.imageOpt tag img tr mask)).1.objAt k = some (.image img.id m s r) := by
  have hr := h.step (.imageOpt tag img tr mask)
  have key : ∃ e i, (Verif.Doc.step d (.imageOpt tag img tr mask)).1.lastEntry = some e ∧ e.tag = tag ∧ e.xobj = some (i + 1) ∧
      (img.id, i) ∈ (Verif.Doc.step d (.imageOpt tag img tr mask)).1.imgs := by
    have S : Stable0 (fun _ : Doc => True) := by constructor <;> intros <;> trivial
    simp only [Verif.Doc.step, Doc.imageWithOptions] at hok ⊢
    obtain ⟨b1, _, _, _⟩ := both_cachedTransparency S ⟨reachable_base h, trivial⟩ tr
    cases mask with
    | none =>
      obtain ⟨e, i, h1, h2, h3, _, h5⟩ := image_entry0 b1.1 tag img _ hok
      exact ⟨e, i, h1, h2, h3, h5⟩
    | some mm =>
      obtain ⟨m, mtr⟩ := mm
      simp only [] at hok ⊢
      obtain ⟨b2, g2, _, _⟩ := both_cachedTransparency S b1 mtr
      obtain ⟨b3, _, _⟩ := both_maskHolder (tag := tag) S b2 m _ g2
      have hso := maskHolder_ok (tag := tag) ((d.cachedTransparency tr).1.cachedTransparency mtr).1 m
        ((d.cachedTransparency tr).1.cachedTransparency mtr).2.toList
      revert hok b3 hso
      generalize Doc.maskHolder _ _ m _ = r
      obtain ⟨d', g, o⟩ := r
      intro hok b3 hso
      split at hok
      · next heq =>
        cases heq
        obtain ⟨e, i, h1, h2, h3, _, h5⟩ := image_entry0 b3.1 tag img _ hok
        exact ⟨e, i, h1, h2, h3, h5⟩
      · next hno heq =>
        cases heq
        exfalso
        replace hok : o = .ok := hok
        subst hok
        cases g with
        | none => simpa using hso rfl
        | some g => exact hno g rfl rfl
  obtain ⟨e, i, h1, h2, h3, h5⟩ := key
  obtain ⟨h6, m, s, r, h7⟩ := img_denotes hr h5
  exact ⟨e, i + 1, m, s, r, h1, h2, h3, h6, h7⟩

theorem append_proc {d : Doc} (b : Base d) (e : Entry) : (d.append e).proc = d.proc := by
  obtain ⟨fs, cs, xs, gs, hp⟩ := proc_some b
  have key : ∀ (l : List Obj) (i : Nat), l[procIdx]? = some (.procset fs cs xs gs) →
      (l.modify i (Obj.addEntry e))[procIdx]? = some (.procset fs cs xs gs) := by
    intro l i h
    rw [List.getElem?_modify, h]
    by_cases hi : i = procIdx <;> simp [hi, Obj.addEntry]
  rw [hp]
  unfold Doc.proc at hp ⊢
  unfold Doc.append Doc.getContent
  cases d.content with
  | some i => exact key _ _ hp
  | none =>
    refine key _ _ ?_
    simp only [Doc.add]
    rw [List.getElem?_append_left (lt_of_get hp)]; exact hp

theorem extGState_at {d : Doc} (b : Base d) (k : GKey) : (k, (d.extGState k).2) ∈ (d.extGState k).1.gss := by
  unfold Doc.extGState
  cases hk : assoc d.gss k with
  | some i => exact assoc_mem hk
  | none => simp

theorem saveTransparency_at {d : Doc} (b : Base d) (t : Tr) (ht : t.isOne = false) :
    ∃ i, (d.saveTransparency t).2 = some (i + 1) ∧ (GKey.alpha t.alpha3 t.blend, i) ∈ (d.saveTransparency t).1.gss := by
  unfold Doc.saveTransparency
  cases hk : assoc d.trs (t.alpha3, t.blend) with
  | some n =>
    obtain ⟨i, rfl, hi⟩ := b.trs _ _ _ (assoc_mem hk)
    exact ⟨i, rfl, hi⟩
  | none =>
    simp only [ht, Bool.false_eq_true, if_false]
    exact ⟨_, rfl, extGState_at b _⟩

theorem gs_objAt {d : Doc} (b : Base d) {k : GKey} {i : Nat} (h : (k, i) ∈ d.gss) : d.objAt (i + 1) = some (.extGS k) := by
  have h1 := b.gss k i h
  unfold Doc.idents at h1
  rw [List.getElem?_map] at h1
  obtain ⟨o, ho, e⟩ := Option.map_eq_some_iff.1 h1
  rw [objAt_of ho, ident_gs e]

theorem saveTransparency_selects {d : Doc} (h : Reachable d) (t : Tr) (ht : t.isOne = false) :
    ∃ n, (Verif.Doc.step d (.setTransparency t)).1.curTr = some n ∧
      (Verif.Doc.step d (.setTransparency t)).1.objAt n = some (.extGS (.alpha t.alpha3 t.blend)) := by
  have b' := reachable_base (h.step (.setTransparency t))
  obtain ⟨i, h1, h2⟩ := saveTransparency_at (reachable_base h) t ht
  exact ⟨i + 1, h1, gs_objAt b' h2⟩

theorem drawTr_entry {d : Doc} (h : Reachable d) (tag : Nat) (t : Tr) (ht : t.isOne = false)
    (hok : (Verif.Doc.step d (.drawTr tag (some t))).2 = .ok) :
    ∃ e n, (Verif.Doc.step d (.drawTr tag (some t))).1.lastEntry = some e ∧ e.tag = tag ∧ e.gs = [n] ∧
      (Verif.Doc.step d (.drawTr tag (some t))).1.objAt n = some (.extGS (.alpha t.alpha3 t.blend)) := by
  have b' := reachable_base (h.step (.drawTr tag (some t)))
  obtain ⟨i, h1, h2⟩ := saveTransparency_at (reachable_base h) t ht
  have S : Stable0 (fun _ : Doc => True) := by constructor <;> intros <;> trivial
  obtain ⟨b1, _, _, _⟩ := both_saveTransparency S ⟨reachable_base h, trivial⟩ t
  have e0 : Verif.Doc.step d (.drawTr tag (some t)) =
      (d.saveTransparency t).1.appendPaged { tag := tag, gs := (d.saveTransparency t).2.toList } := rfl
  unfold Doc.appendPaged at e0
  split at e0
  · rw [e0] at hok; simp at hok
  · have hg : (Verif.Doc.step d (.drawTr tag (some t))).1.gss = (d.saveTransparency t).1.gss := by
      rw [e0]; unfold Doc.append Doc.getContent; cases (d.saveTransparency t).1.content <;> rfl
    refine ⟨_, i + 1, by rw [e0]; exact (lastEntry_append b1.1 _).1, rfl, by rw [h1]; rfl, gs_objAt b' (by rw [hg]; exact h2)⟩

theorem addColorSpace_ok_iff {d : Doc} (h : Reachable d) (name : Nat) :
    (Verif.Doc.step d (.addColorSpace name)).2 = .ok ↔ ∀ n c, d.objAt n ≠ some (.colorSpace name c) := by
  have hres := reachable_res h
  have hf := (reachable_names h).first
  simp only [Verif.Doc.step, Doc.addColorSpace]
  split
  · next ha =>
    constructor
    · intro hc; simp at hc
    · intro hc
      exfalso
      rw [List.any_eq_true] at ha
      obtain ⟨r, hr, e⟩ := ha
      simp at e
      obtain ⟨x, h1, h2⟩ := ok_of_ident (k := "") (hres.csObj r hr) rfl
      have h3 := hres.csObj r hr
      unfold Doc.idents at h3
      rw [List.getElem?_map] at h3
      obtain ⟨o, ho, e'⟩ := Option.map_eq_some_iff.1 h3
      cases o <;> simp [Obj.ident] at e'
      obtain ⟨rfl, rfl⟩ := e'
      exact hc (r.index + 1) r.count (by rw [objAt_of ho, e])
  · next ha =>
    refine ⟨fun _ n c hn => ha ?_, fun _ => rfl⟩
    -- the first colour space of that name is registered
    obtain ⟨_, _, hi⟩ := objAt_lt hn
    have : ∃ (i c : Nat), d.idents[i]? = some (Obj.colorSpace name c) ∧ ∀ (j c' : Nat), j < i → d.idents[j]? ≠ some (.colorSpace name c') := by
      have hp : ∃ (i : Nat), ∃ c, d.idents[i]? = some (.colorSpace name c) := ⟨n - 1, c, ident_at hi⟩
      classical
      refine ⟨Nat.find hp, _, (Nat.find_spec hp).choose_spec, ?_⟩
      intro j c' hj e
      exact Nat.find_min hp hj ⟨c', e⟩
    obtain ⟨i, c, h1, h2⟩ := this
    rw [List.any_eq_true]
    exact ⟨_, hf.cs i name c h1 h2, by simp⟩

theorem findFrom_none {p : Obj → Bool} {l : List Obj} {n : Nat} (h : findFrom p n l = none) : ∀ o ∈ l, p o = false := by
  induction l generalizing n with
  | nil => simp
  | cons a l ih =>
    simp only [findFrom] at h
    split at h
    · simp at h
    · next ha =>
      intro o ho
      rcases List.mem_cons.1 ho with rfl | ho
      · simpa using ha
      · exact ih h o ho

theorem setColorSpace_ok_iff (d : Doc) (tag name : Nat) :
    ((Verif.Doc.step d (.setColorSpace tag name)).2 = .ok ↔ ∃ n c, d.objAt n = some (.colorSpace name c)) ∧
    ((Verif.Doc.step d (.setColorSpace tag name)).2 ≠ .ok → Verif.Doc.step d (.setColorSpace tag name) = (d, .err)) := by
  simp only [Verif.Doc.step, Doc.setColorSpace]
  cases hf : findFrom (isCS name) 0 d.objs with
  | none =>
    refine ⟨⟨fun h => by simp at h, ?_⟩, fun _ => rfl⟩
    rintro ⟨n, c, hn⟩
    obtain ⟨_, _, hi⟩ := objAt_lt hn
    have := findFrom_none hf _ (List.mem_of_getElem? hi)
    simp [isCS] at this
  | some x =>
    obtain ⟨i, o⟩ := x
    obtain ⟨j, hj, h1, h2, _⟩ := findFrom_some hf
    rw [Nat.zero_add] at hj
    subst hj
    cases o <;> simp [isCS] at h2
    next m c =>
    subst h2
    exact ⟨⟨fun _ => ⟨_, _, objAt_of h1⟩, fun _ => rfl⟩, fun h => absurd rfl h⟩

theorem setColorSpace_entry {d : Doc} (h : Reachable d) (tag name : Nat)
    (hok : (Verif.Doc.step d (.setColorSpace tag name)).2 = .ok) :
    ∃ e k n c, (Verif.Doc.step d (.setColorSpace tag name)).1.lastEntry = some e ∧ e.tag = tag ∧ e.cs = some k ∧
      Denotes (Verif.Doc.step d (.setColorSpace tag name)).1.csNames k n ∧ d.objAt n = some (.colorSpace name c) ∧
      ∀ m c', m < n → d.objAt m ≠ some (.colorSpace name c') := by
  have hr := h.step (.setColorSpace tag name)
  have hres := reachable_res hr
  have b := reachable_base h
  have hnm := (reachable_names h).first
  cases hf : findFrom (isCS name) 0 d.objs with
  | none => simp [Verif.Doc.step, Doc.setColorSpace, hf] at hok
  | some x =>
    obtain ⟨i, o⟩ := x
    obtain ⟨j, hj, h1, h2, h3⟩ := findFrom_some hf
    rw [Nat.zero_add] at hj
    subst hj
    cases o <;> simp [isCS] at h2
    next m c =>
    subst h2
    have es : Verif.Doc.step d (.setColorSpace tag m) = (d.append { tag := tag, cs := some (c + 1) }, .ok) := by
      simp [Verif.Doc.step, Doc.setColorSpace, hf]
    have hfirst : ∀ j' c', j' < i → d.objs[j']? ≠ some (.colorSpace m c') := by
      intro j' c' hj' e
      have := h3 j' _ hj' e
      simp [isCS] at this
    have hmem : (⟨m, c, i⟩ : RelCS) ∈ d.relCSs := by
      refine hnm.cs i m c (ident_at h1) ?_
      intro j' c' hj' e
      unfold Doc.idents at e
      rw [List.getElem?_map] at e
      obtain ⟨o, ho, e'⟩ := Option.map_eq_some_iff.1 e
      cases o <;> simp [Obj.ident] at e'
      obtain ⟨rfl, rfl⟩ := e'
      exact hfirst j' _ hj' ho
    have hrel : (d.append { tag := tag, cs := some (c + 1) }).relCSs = d.relCSs := (rel_congr (append_proc b _)).2.1
    refine ⟨_, c + 1, i + 1, c, by rw [es]; exact (lastEntry_append b _).1, rfl, rfl, ?_, objAt_of h1, ?_⟩
    · refine denotes_of' ?_ (List.mem_map.2 ⟨⟨m, c, i⟩, by rw [es, hrel]; exact hmem, rfl⟩)
      have : ∀ d : Doc, d.csNames.map (·.1) = (d.relCSs.map (·.count)).map (· + 1) := by intro d; simp [Doc.csNames]
      rw [this, hres.csCount]
      exact nodup_add_one List.nodup_range
    · intro n c' hn e
      obtain ⟨h0, _, e'⟩ := objAt_lt e
      exact hfirst (n - 1) c' (by omega) e'

end Verif.Doc
