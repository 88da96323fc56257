import Verif.Lemmas.Doc.Pages
import Mathlib.Data.List.Induction
/- The sequence of pages and content streams, and how calls change it. -/
namespace Verif.Doc

/-- A page or a content stream with what it draws. -/
inductive Item where
  | page
  | content (tags : List Nat)
deriving DecidableEq

def Obj.item : Obj → Option Item
  | .page _ _ _ => some .page
  | .content es => some (.content (es.map (·.tag)))
  | _ => none

/-- Pages and streams in order, and the position of the current stream among them. -/
structure View where
  items : List Item
  cur : Option Nat
  n : Nat
deriving DecidableEq

def rank (l : List (Option Item)) (i : Nat) : Nat := ((l.take i).filterMap id).length

def Doc.its (d : Doc) : List (Option Item) := d.objs.map Obj.item
def Doc.view (d : Doc) : View := ⟨d.its.filterMap id, d.content.map (rank d.its), d.numPages⟩

/-- The current stream index is valid and is a stream. -/
def Cv (d : Doc) : Prop := ∀ i, d.content = some i → ∃ es, d.objs[i]? = some (.content es)

/-- Nothing about pages and streams changed. -/
def Inert (d d' : Doc) : Prop := (d'.content = d.content ∧ d'.numPages = d.numPages) ∧ ∃ n, d'.its = d.its ++ List.replicate n none

theorem Inert.refl (d : Doc) : Inert d d := ⟨⟨rfl, rfl⟩, 0, by simp⟩
theorem Inert.trans {a b c : Doc} (h : Inert a b) (h' : Inert b c) : Inert a c := by
  obtain ⟨e, n, h⟩ := h
  obtain ⟨e', n', h'⟩ := h'
  exact ⟨⟨e'.1.trans e.1, e'.2.trans e.2⟩, n + n', by rw [h', h, List.append_assoc, List.replicate_append_replicate]⟩
theorem Inert.of_objs {d d' : Doc} (h : d'.objs = d.objs) (hc : d'.content = d.content) (hn : d'.numPages = d.numPages) :
    Inert d d' := ⟨⟨hc, hn⟩, 0, by simp [Doc.its, h]⟩
theorem Inert.add (d : Doc) (o : Obj) (h : o.item = none) : Inert d (d.add o) :=
  ⟨⟨rfl, rfl⟩, 1, by simp [Doc.its, Doc.add, h]⟩
theorem Inert.upd (d : Doc) (i : Nat) (f : Obj → Obj) (h : ∀ o, (f o).item = o.item) : Inert d (d.upd i f) :=
  ⟨⟨rfl, rfl⟩, 0, by
    have := map_modify Obj.item f h d.objs i
    simpa [Doc.its, Doc.upd] using this⟩

theorem take_its_append {l : List (Option Item)} {n i : Nat} (h : i ≤ l.length) (m : List (Option Item)) :
    rank (l ++ m) i = rank l i := by
  unfold rank
  rw [List.take_append_of_le_length h]

theorem Cv.lt {d : Doc} (h : Cv d) {i : Nat} (hi : d.content = some i) : i < d.its.length := by
  obtain ⟨es, he⟩ := h i hi
  simpa [Doc.its] using lt_of_get he

theorem Inert.view {d d' : Doc} (h : Inert d d') (hc : Cv d) : d'.view = d.view := by
  obtain ⟨e, n, h⟩ := h
  unfold Doc.view
  rw [e.1, e.2, h]
  congr 1
  · rw [List.filterMap_append]
    have : (List.replicate n (none : Option Item)).filterMap id = [] := by
      rw [List.filterMap_eq_nil_iff]; intro x hx; exact List.eq_of_mem_replicate hx
    rw [this, List.append_nil]
  · cases hi : d.content with
    | none => rfl
    | some i =>
      simp only [Option.map_some]
      rw [take_its_append (n := 0) (Nat.le_of_lt (hc.lt hi))]

theorem item_content {o : Obj} {t : List Nat} (h : o.item = some (.content t)) : ∃ es, o = .content es ∧ es.map (·.tag) = t := by
  cases o <;> simp [Obj.item] at h
  exact ⟨_, rfl, h⟩

theorem Inert.cv {d d' : Doc} (h : Inert d d') (hc : Cv d) : Cv d' := by
  obtain ⟨e, n, h⟩ := h
  intro i hi
  rw [e.1] at hi
  obtain ⟨es, he⟩ := hc i hi
  have h1 : d'.its[i]? = some (some (.content (es.map (·.tag)))) := by
    rw [h, List.getElem?_append_left (hc.lt hi)]
    simp [Doc.its, he, Obj.item]
  unfold Doc.its at h1
  rw [List.getElem?_map] at h1
  cases ho : d'.objs[i]? with
  | none => rw [ho] at h1; simp at h1
  | some o =>
    rw [ho] at h1
    simp at h1
    obtain ⟨es', rfl, _⟩ := item_content h1
    exact ⟨es', rfl⟩

theorem item_addFontRel (r : RelFont) (o : Obj) : (o.addFontRel r).item = o.item := by cases o <;> rfl
theorem item_addCSRel (r : RelCS) (o : Obj) : (o.addCSRel r).item = o.item := by cases o <;> rfl
theorem item_addXobj (i : Nat) (o : Obj) : (o.addXobj i).item = o.item := by cases o <;> rfl
theorem item_addGS (i : Nat) (o : Obj) : (o.addGS i).item = o.item := by cases o <;> rfl
theorem item_setSMask (n : Nat) (o : Obj) : (o.setSMask n).item = o.item := by cases o <;> rfl
theorem item_setRGB (n : Nat) (o : Obj) : (o.setRGB n).item = o.item := by cases o <;> rfl
theorem item_addLinkId (n : Nat) (o : Obj) : (o.addLinkId n).item = o.item := by cases o <;> rfl
theorem item_addOutlineId (n : Nat) (o : Obj) : (o.addOutlineId n).item = o.item := by cases o <;> rfl
theorem item_setNext (n : Nat) (o : Obj) : (o.setNext n).item = o.item := by cases o <;> rfl
theorem item_keep (o : Obj) : (keep o).item = o.item := by cases o <;> rfl

theorem Inert.extGState (d : Doc) (k : GKey) : Inert d (d.extGState k).1 := by
  unfold Doc.extGState; split
  · exact Inert.refl d
  · exact ((Inert.add d (.extGS k) rfl).trans (Inert.upd _ procIdx _ (item_addGS _))).trans (Inert.of_objs rfl rfl rfl)

theorem Inert.saveTransparency (d : Doc) (t : Tr) : Inert d (d.saveTransparency t).1 := by
  unfold Doc.saveTransparency; split
  · exact Inert.refl d
  · split
    · exact Inert.refl d
    · exact (Inert.extGState d _).trans (Inert.of_objs rfl rfl rfl)

theorem Inert.cachedTransparency (d : Doc) (t : Option Tr) : Inert d (d.cachedTransparency t).1 := by
  unfold Doc.cachedTransparency
  cases t with
  | none => exact Inert.refl d
  | some t => exact Inert.saveTransparency d t

theorem Inert.register (d : Doc) (id i : Nat) (a x : Bool) : Inert d (d.register id i a x) := by
  have c0 : Inert d (d.cacheImage id i) :=
    (Inert.upd d procIdx (Obj.addXobj i) (item_addXobj _)).trans (Inert.of_objs rfl rfl rfl)
  have s1 : ∀ e : Doc, Inert e (e.addSMaskImage i) := fun e =>
    (Inert.add e .imageSMask rfl).trans (Inert.upd _ _ _ (item_setSMask _))
  have s2 : ∀ e : Doc, Inert e (e.addPalette i) := fun e =>
    (Inert.add e .deviceRGB rfl).trans (Inert.upd _ _ _ (item_setRGB _))
  unfold Doc.register
  simp only []
  split <;> split
  · exact (c0.trans (s1 _)).trans (s2 _)
  · exact c0.trans (s2 _)
  · exact c0.trans (s1 _)
  · exact c0

theorem Inert.softMask (d : Doc) (g : Nat) : Inert d (d.softMask g).1 := by
  unfold Doc.softMask; split
  · exact Inert.refl d
  · exact (Inert.add d _ rfl).trans (Inert.of_objs rfl rfl rfl)

theorem Inert.maskGroup {tag : Nat} (d : Doc) (x : Nat) (gs : List Nat) : Inert d (d.maskGroup tag x gs).1 := by
  unfold Doc.maskGroup
  simp only []
  exact (Inert.add d _ rfl).trans ((Inert.softMask _ _).trans (Inert.extGState _ _))

theorem Inert.addFont (d : Doc) (f s : Nat) : Inert d (d.addFont f s) := by
  unfold Doc.addFont
  simp only []
  have h : ∀ a b c e g : Obj, a.item = none → b.item = none → c.item = none → e.item = none → g.item = none →
      Inert d (((((d.add a).add b).add c).add e).add g) := fun a b c e g ha hb hc he hg =>
    ((((Inert.add d a ha).trans (Inert.add _ b hb)).trans (Inert.add _ c hc)).trans (Inert.add _ e he)).trans
      (Inert.add _ g hg)
  split
  · exact ((h _ _ _ _ _ rfl rfl rfl rfl rfl).trans (Inert.upd _ procIdx _ (item_addFontRel _))).trans (Inert.of_objs rfl rfl rfl)
  · exact h _ _ _ _ _ rfl rfl rfl rfl rfl

theorem Inert.setFont (d : Doc) (f s : Nat) : Inert d (d.setFont f s).1 := by
  rw [setFont_fields]; exact Inert.of_objs rfl rfl rfl

theorem Inert.addColorSpace (d : Doc) (n : Nat) : Inert d (d.addColorSpace n).1 := by
  unfold Doc.addColorSpace
  simp only []
  split
  · exact Inert.add d _ rfl
  · exact ((Inert.add d _ rfl).trans (Inert.upd _ procIdx _ (item_addCSRel _))).trans (Inert.of_objs rfl rfl rfl)

theorem Inert.addLink (d : Doc) (a : Option Nat) : Inert d (d.addLink a).1 := by
  unfold Doc.addLink
  split
  · exact Inert.refl d
  · exact (Inert.add d _ rfl).trans (Inert.upd _ _ _ (item_addLinkId _))

theorem Inert.addOutline (d : Doc) (t : Nat) : Inert d (d.addOutline t) := by
  unfold Doc.addOutline
  simp only []
  have k := (Inert.add d (.outline t d.curPageId 2 (d.lastOutline.map (· + 1)) none) rfl).trans
      (Inert.upd _ outlinesIdx (Obj.addOutlineId (d.objs.length + 1)) (item_addOutlineId _))
  split
  · exact k.trans (Inert.of_objs rfl rfl rfl)
  · next j _ => exact (k.trans (Inert.upd _ j _ (item_setNext _))).trans (Inert.of_objs rfl rfl rfl)

theorem Inert.imported (d : Doc) (n : Nat) : Inert d { d with objs := d.objs ++ List.replicate n .imported } :=
  ⟨⟨rfl, rfl⟩, n, by simp [Doc.its, Obj.item]⟩

theorem Inert.prepare (d : Doc) : Inert d d.prepare := by
  refine ⟨⟨by rw [prepare_fields], by rw [prepare_fields]⟩, if d.prot then 1 else 0, ?_⟩
  have h := congrArg (List.map Obj.item) (prepare_keep d)
  simp only [List.map_map] at h
  have e : Obj.item ∘ keep = Obj.item := funext item_keep
  rw [e] at h
  unfold Doc.its
  rw [h, List.map_append]
  cases d.prot <;> simp [Obj.item]

/-! Drawing. -/

def View.touch (v : View) : View :=
  match v.cur with
  | some _ => v
  | none => ⟨v.items ++ [.content []], some v.items.length, v.n⟩

def Item.addTag (t : Nat) : Item → Item
  | .content ts => .content (ts ++ [t])
  | i => i

def View.draw (t : Nat) (v : View) : View :=
  ⟨v.touch.items.modify (v.touch.cur.getD 0) (Item.addTag t), v.touch.cur, v.touch.n⟩

theorem View.touch_touch (v : View) : v.touch.touch = v.touch := by
  unfold View.touch
  cases h : v.cur <;> simp [h]

theorem View.draw_touch (t : Nat) (v : View) : v.touch.draw t = v.draw t := by
  unfold View.draw; rw [View.touch_touch]

theorem filterMap_modify {l : List (Option Item)} {i : Nat} {x : Item} (f : Item → Item) (h : l[i]? = some (some x)) :
    (l.modify i (Option.map f)).filterMap id = (l.filterMap id).modify (rank l i) f := by
  induction l generalizing i with
  | nil => simp at h
  | cons a l ih =>
    cases i with
    | zero =>
      simp at h
      subst h
      simp [rank]
    | succ i =>
      simp at h
      rw [List.modify_succ_cons]
      have := ih h
      cases a with
      | none => simp [rank] at this ⊢; exact this
      | some a => simp [rank] at this ⊢; exact this

theorem Cv.getContent {d : Doc} (h : Cv d) : Cv d.getContent.1 := by
  unfold Doc.getContent
  cases hc : d.content with
  | some i => simpa using h
  | none =>
    intro i hi
    simp at hi
    subst hi
    exact ⟨[], by simp [Doc.add]⟩

theorem view_getContent {d : Doc} : d.getContent.1.view = d.view.touch := by
  unfold Doc.getContent View.touch Doc.view
  cases hc : d.content with
  | some i => simp [hc]
  | none =>
    simp [Doc.its, Doc.add, Obj.item, rank]

theorem item_addEntry (e : Entry) (o : Obj) : (o.addEntry e).item = o.item.map (Item.addTag e.tag) := by
  cases o <;> simp [Obj.addEntry, Obj.item, Item.addTag]

theorem its_upd_entry (d : Doc) (i : Nat) (e : Entry) :
    (d.upd i (Obj.addEntry e)).its = d.its.modify i (Option.map (Item.addTag e.tag)) := by
  unfold Doc.its Doc.upd
  apply List.ext_getElem?
  intro j
  rw [List.getElem?_map, List.getElem?_modify, List.getElem?_modify, List.getElem?_map]
  cases d.objs[j]? with
  | none => rfl
  | some o => simp only [Option.map_some]; split <;> simp [item_addEntry]

theorem Cv.append {d : Doc} (h : Cv d) (e : Entry) : Cv (d.append e) := by
  have h' := h.getContent
  unfold Doc.append
  simp only []
  intro i hi
  have hi' : d.getContent.1.content = some i := hi
  obtain ⟨es, he⟩ := h' i hi'
  rw [getContent_some] at hi'
  simp at hi'
  rw [hi']
  refine ⟨es ++ [e], ?_⟩
  simp [Doc.upd, List.getElem?_modify, he, Obj.addEntry]

theorem modify_ge {α : Type} (l : List α) (i : Nat) (f : α → α) (h : l.length ≤ i) : l.modify i f = l := by
  apply List.ext_getElem?
  intro j
  rw [List.getElem?_modify]
  split
  · next e => subst e; rw [List.getElem?_eq_none h]; rfl
  · simp

theorem view_append {d : Doc} (h : Cv d) (e : Entry) : (d.append e).view = d.view.draw e.tag := by
  have h' := h.getContent
  have hc := getContent_some d
  obtain ⟨es, he⟩ := h' _ hc
  have hv : d.view.touch = d.getContent.1.view := view_getContent.symm
  unfold View.draw
  rw [hv]
  unfold Doc.append
  simp only []
  unfold Doc.view
  rw [its_upd_entry]
  have hit : d.getContent.1.its[d.getContent.2]? = some (some (.content (es.map (·.tag)))) := by
    simp [Doc.its, he, Obj.item]
  rw [filterMap_modify _ hit]
  have h2 : (d.getContent.1.upd d.getContent.2 (Obj.addEntry e)).content = some d.getContent.2 := hc
  rw [h2, hc]
  simp only [Option.map_some, Option.getD_some]
  have hr : rank (d.getContent.1.its.modify d.getContent.2 (Option.map (Item.addTag e.tag))) d.getContent.2 =
      rank d.getContent.1.its d.getContent.2 := by
    unfold rank
    rw [List.take_modify, modify_ge _ _ _ (by simp; omega)]
  rw [hr]
  rfl

theorem appendPaged_cases {d : Doc} (h : Cv d) (e : Entry) : Cv (d.appendPaged e).1 ∧
    (((d.appendPaged e).2 = .ok ∧ (d.appendPaged e).1.view = d.view.draw e.tag) ∨
     ((d.appendPaged e).2 = .panic ∧ (d.appendPaged e).1.view = d.view.touch)) := by
  unfold Doc.appendPaged
  split
  · exact ⟨h.getContent, Or.inr ⟨rfl, view_getContent⟩⟩
  · exact ⟨h.append e, Or.inl ⟨rfl, view_append h e⟩⟩

/-- The effect of a call on pages and streams: either it drew `t` and succeeded, or it drew nothing (at most creating an
empty stream). -/
def Drew (d : Doc) (t : Nat) (r : Doc × Outcome) : Prop := Cv r.1 ∧
  ((r.2 = .ok ∧ r.1.view = d.view.draw t) ∨ (r.2 ≠ .ok ∧ (r.1.view = d.view ∨ r.1.view = d.view.touch)))

theorem drew_appendPaged {d : Doc} (h : Cv d) (e : Entry) : Drew d e.tag (d.appendPaged e) := by
  obtain ⟨h1, h2 | h2⟩ := appendPaged_cases h e
  · exact ⟨h1, Or.inl h2⟩
  · exact ⟨h1, Or.inr ⟨by simp [h2.1], Or.inr h2.2⟩⟩

theorem Drew.inert {d d' : Doc} {t : Nat} {r : Doc × Outcome} (hi : d'.view = d.view) (h : Drew d' t r) : Drew d t r := by
  unfold Drew at h ⊢
  rw [hi] at h
  exact h

theorem Drew.touched {d d' : Doc} {t : Nat} {r : Doc × Outcome} (hi : d'.view = d.view.touch) (h : Drew d' t r) :
    Drew d t r := by
  obtain ⟨h0, h1 | ⟨h1, h2⟩⟩ := h
  · rw [hi, View.draw_touch] at h1; exact ⟨h0, Or.inl h1⟩
  · rw [hi, View.touch_touch] at h2
    exact ⟨h0, Or.inr ⟨h1, Or.inr (by rcases h2 with h | h <;> exact h)⟩⟩

theorem drew_imageByHolder {d : Doc} (h : Cv d) (tag : Nat) (img : Img) (gs : List Nat) (split : Bool) :
    Drew d tag (d.imageByHolder tag img gs split) := by
  unfold Doc.imageByHolder
  split
  · exact drew_appendPaged h _
  · split
    · exact ⟨h, Or.inr ⟨by simp, Or.inl rfl⟩⟩
    · next a x _ =>
      simp only []
      have hi := Inert.add d (.image img.id ⟨false, a, x, split⟩ none none) rfl
      have hd := drew_appendPaged (hi.cv h) { tag := tag, xobj := some (d.objs.length + 1), gs := gs }
      have hd := hd.inert (hi.view h)
      revert hd
      generalize Doc.appendPaged _ _ = r
      obtain ⟨d', o⟩ := r
      intro hd
      obtain ⟨h0, hd⟩ := hd
      cases o with
      | ok =>
        have hr := Inert.register d' img.id d.objs.length a x
        refine ⟨hr.cv h0, Or.inl ⟨rfl, ?_⟩⟩
        rw [hr.view h0]
        rcases hd with hd | hd
        · exact hd.2
        · exact absurd rfl hd.1
      | err => exact ⟨h0, hd⟩
      | panic => exact ⟨h0, hd⟩

theorem touch_maskHolder {tag : Nat} {d : Doc} (h : Cv d) (img : Img) (gs : List Nat) : Cv (d.maskHolder tag img gs).1 ∧
    ((d.maskHolder tag img gs).1.view = d.view ∨ (d.maskHolder tag img gs).1.view = d.view.touch) := by
  unfold Doc.maskHolder
  split
  · split
    · exact ⟨h.getContent, Or.inr view_getContent⟩
    · have hm := Inert.maskGroup (tag := tag) d.getContent.1 (by assumption) gs
      exact ⟨hm.cv h.getContent, Or.inr (by rw [hm.view h.getContent, view_getContent])⟩
  · split
    · exact ⟨h, Or.inl rfl⟩
    · next a x _ =>
      simp only []
      have hi := Inert.add d (.image img.id ⟨true, a, x, false⟩ none none) rfl
      have hc := (hi.cv h).getContent
      have hv : (d.add (.image img.id ⟨true, a, x, false⟩ none none)).getContent.1.view = d.view.touch := by
        rw [view_getContent, hi.view h]
      split
      · exact ⟨hc, Or.inr hv⟩
      · have hr := Inert.register (d.add (.image img.id ⟨true, a, x, false⟩ none none)).getContent.1 img.id d.objs.length false false
        have hm := hr.trans (Inert.maskGroup (tag := tag) _ d.objs.length gs)
        exact ⟨hm.cv hc, Or.inr (by rw [hm.view hc, hv])⟩

theorem drew_imageWithOptions {d : Doc} (h : Cv d) (tag : Nat) (img : Img) (tr : Option Tr)
    (mask : Option (Img × Option Tr)) : Drew d tag (d.imageWithOptions tag img tr mask) := by
  unfold Doc.imageWithOptions
  simp only []
  have h1 := Inert.cachedTransparency d tr
  split
  · exact (drew_imageByHolder (h1.cv h) _ _ _ _).inert (h1.view h)
  · next m mtr =>
    have h2 := h1.trans (Inert.cachedTransparency (d.cachedTransparency tr).1 mtr)
    have hm := touch_maskHolder (tag := tag) (h2.cv h) m ((d.cachedTransparency tr).1.cachedTransparency mtr).2.toList
    rw [h2.view h] at hm
    revert hm
    have hok : ∀ d' g3, Doc.maskHolder ((d.cachedTransparency tr).1.cachedTransparency mtr).1 tag m
        ((d.cachedTransparency tr).1.cachedTransparency mtr).2.toList = (d', g3, Outcome.ok) → g3 ≠ none := by
      intro d' g3 he
      unfold Doc.maskHolder at he
      split at he
      · split at he <;> simp at he
        rw [← he.2]; simp
      · split at he
        · simp at he
        · simp only [] at he
          split at he <;> simp at he
          rw [← he.2]; simp
    revert hok
    generalize Doc.maskHolder _ _ m _ = r
    obtain ⟨d', g, o⟩ := r
    intro hok hm
    obtain ⟨hcv, hv⟩ := hm
    split
    · next heq =>
      cases heq
      rcases hv with hv | hv
      · exact (drew_imageByHolder hcv _ _ _ _).inert hv
      · exact (drew_imageByHolder hcv _ _ _ _).touched hv
    · next hne heq =>
      cases heq
      refine ⟨hcv, Or.inr ⟨?_, hv⟩⟩
      intro ho
      simp at ho
      subst ho
      have := hok d' g rfl
      cases g with
      | none => exact this rfl
      | some g => exact hne g rfl rfl

/-- Every call: what it does to pages and streams. -/
theorem step_view {d : Doc} (h : Cv d) (op : Op) :
    (op = .addPage ∧ (step d op).1.view = ⟨d.view.items ++ [.page], none, d.view.n + 1⟩ ∧ Cv (step d op).1) ∨
    (∃ k, op = .setPage k) ∨
    (∃ t, op.tag? = some t ∧ Drew d t (step d op)) ∨
    (op ≠ .addPage ∧ op.tag? = none ∧ (step d op).1.view = d.view ∧ Cv (step d op).1) := by
  have inert : ∀ {op : Op}, op ≠ .addPage → op.tag? = none → Inert d (step d op).1 →
      (op ≠ .addPage ∧ op.tag? = none ∧ (step d op).1.view = d.view ∧ Cv (step d op).1) :=
    fun h1 h2 hi => ⟨h1, h2, hi.view h, hi.cv h⟩
  cases op with
  | addPage =>
    refine Or.inl ⟨rfl, ?_, ?_⟩
    · simp [step, Doc.addPage, Doc.view, Doc.its, Doc.add, Obj.item]
    · intro i hi; simp [step, Doc.addPage] at hi
  | setPage k => exact Or.inr (Or.inl ⟨k, rfl⟩)
  | draw t np =>
    refine Or.inr (Or.inr (Or.inl ⟨t, rfl, ?_⟩))
    simp only [step]
    split
    · exact drew_appendPaged h { tag := t }
    · exact ⟨h.append _, Or.inl ⟨rfl, view_append h { tag := t }⟩⟩
  | drawTr t tr =>
    refine Or.inr (Or.inr (Or.inl ⟨t, rfl, ?_⟩))
    have h1 := Inert.cachedTransparency d tr
    exact (drew_appendPaged (h1.cv h) _).inert (h1.view h)
  | text t =>
    refine Or.inr (Or.inr (Or.inl ⟨t, rfl, ?_⟩))
    simp only [step]
    split
    · exact ⟨h, Or.inr ⟨by simp, Or.inl rfl⟩⟩
    · exact drew_appendPaged h _
  | cell t tr =>
    refine Or.inr (Or.inr (Or.inl ⟨t, rfl, ?_⟩))
    have h1 := Inert.cachedTransparency d tr
    simp only [step]
    split
    · exact ⟨h1.cv h, Or.inr ⟨by simp, Or.inl (h1.view h)⟩⟩
    · exact (drew_appendPaged (h1.cv h) _).inert (h1.view h)
  | image t img => exact Or.inr (Or.inr (Or.inl ⟨t, rfl, drew_imageByHolder h _ _ _ _⟩))
  | imageOpt t img tr mask => exact Or.inr (Or.inr (Or.inl ⟨t, rfl, drew_imageWithOptions h _ _ _ _⟩))
  | setColorSpace t n =>
    refine Or.inr (Or.inr (Or.inl ⟨t, rfl, ?_⟩))
    simp only [step]
    unfold Doc.setColorSpace
    split
    · exact ⟨h.append _, Or.inl ⟨rfl, view_append h _⟩⟩
    · exact ⟨h, Or.inr ⟨by simp, Or.inl rfl⟩⟩
  | setTransparency t =>
    exact Or.inr (Or.inr (Or.inr (inert (by simp) rfl ((Inert.saveTransparency d t).trans (Inert.of_objs rfl rfl rfl)))))
  | clearTransparency => exact Or.inr (Or.inr (Or.inr (inert (by simp) rfl (Inert.of_objs rfl rfl rfl))))
  | addFont f s ok =>
    refine Or.inr (Or.inr (Or.inr (inert (by simp) rfl ?_)))
    simp only [step]
    split
    · exact Inert.addFont d f s
    · exact Inert.refl d
  | setFont f s => exact Or.inr (Or.inr (Or.inr (inert (by simp) rfl (Inert.setFont d f s))))
  | addColorSpace n => exact Or.inr (Or.inr (Or.inr (inert (by simp) rfl (Inert.addColorSpace d n))))
  | externalLink => exact Or.inr (Or.inr (Or.inr (inert (by simp) rfl (Inert.addLink d none))))
  | internalLink a => exact Or.inr (Or.inr (Or.inr (inert (by simp) rfl (Inert.addLink d (some a)))))
  | setAnchor n y => exact Or.inr (Or.inr (Or.inr (inert (by simp) rfl (Inert.of_objs rfl rfl rfl))))
  | addOutline t => exact Or.inr (Or.inr (Or.inr (inert (by simp) rfl (Inert.addOutline d t))))
  | importObjects n => exact Or.inr (Or.inr (Or.inr (inert (by simp) rfl (Inert.imported d n))))
  | compile => exact Or.inr (Or.inr (Or.inr (inert (by simp) rfl (Inert.prepare d))))

/-! What a reader finds on each page. -/

def addAllToLast (ts : List Nat) : List (List Nat) → List (List Nat)
  | [] => []
  | [l] => [l ++ ts]
  | l :: ls => l :: addAllToLast ts ls

/-- The streams of each page, concatenated. -/
def groupsFrom : List (List Nat) → List Item → List (List Nat)
  | ps, [] => ps
  | ps, .page :: l => groupsFrom (ps ++ [[]]) l
  | ps, .content ts :: l => groupsFrom (addAllToLast ts ps) l

def groups (l : List Item) : List (List Nat) := groupsFrom [] l

theorem groupsFrom_append (ps : List (List Nat)) (l m : List Item) :
    groupsFrom ps (l ++ m) = groupsFrom (groupsFrom ps l) m := by
  induction l generalizing ps with
  | nil => rfl
  | cons a l ih => cases a <;> exact ih _

theorem addAllToLast_snoc (ts x : List Nat) (l : List (List Nat)) : addAllToLast ts (l ++ [x]) = l ++ [x ++ ts] := by
  induction l with
  | nil => rfl
  | cons a l ih =>
    cases l with
    | nil => rfl
    | cons b l => simp only [List.cons_append, addAllToLast] at ih ⊢; rw [ih]

theorem addToLast_snoc (t : Nat) (x : List Nat) (l : List (List Nat)) : addToLast t (l ++ [x]) = l ++ [x ++ [t]] := by
  induction l with
  | nil => rfl
  | cons a l ih =>
    cases l with
    | nil => rfl
    | cons b l => simp only [List.cons_append, addToLast] at ih ⊢; rw [ih]

theorem addAll_nil (l : List (List Nat)) : addAllToLast [] l = l := by
  rcases List.eq_nil_or_concat l with rfl | ⟨l, x, rfl⟩
  · rfl
  · simp [addAllToLast_snoc]

theorem addAll_tag (ts : List Nat) (t : Nat) (l : List (List Nat)) :
    addAllToLast (ts ++ [t]) l = addToLast t (addAllToLast ts l) := by
  rcases List.eq_nil_or_concat l with rfl | ⟨l, x, rfl⟩
  · rfl
  · simp only [List.concat_eq_append]; rw [addAllToLast_snoc, addAllToLast_snoc, addToLast_snoc, List.append_assoc]

/-- Without SetPage the current stream is the last item. -/
def NS (v : View) : Prop := v.cur = none ∨ ∃ l ts, v.items = l ++ [.content ts] ∧ v.cur = some l.length

theorem NS.touch {v : View} (h : NS v) : NS v.touch ∧ groups v.touch.items = groups v.items := by
  unfold View.touch
  cases hc : v.cur with
  | some i => exact ⟨h, rfl⟩
  | none =>
    refine ⟨Or.inr ⟨v.items, [], rfl, rfl⟩, ?_⟩
    simp only [groups, groupsFrom_append]
    exact addAll_nil _

theorem NS.draw {v : View} (h : NS v) (t : Nat) : NS (v.draw t) ∧ groups (v.draw t).items = addToLast t (groups v.items) := by
  obtain ⟨h1, h2⟩ := h.touch
  have hsome : v.touch.cur ≠ none := by unfold View.touch; cases hc : v.cur <;> simp [hc]
  rcases h1 with h1 | ⟨l, ts, h3, h4⟩
  · exact absurd h1 hsome
  · have hi : (v.draw t).items = l ++ [.content (ts ++ [t])] := by
      unfold View.draw
      simp only [h3, h4, Option.getD_some]
      apply List.ext_getElem?
      intro j
      rw [List.getElem?_modify]
      rcases Nat.lt_trichotomy j l.length with hj | hj | hj
      · rw [List.getElem?_append_left hj, List.getElem?_append_left hj]
        simp [Nat.ne_of_gt hj]
      · subst hj; simp [Item.addTag]
      · rw [List.getElem?_eq_none (by simp; omega), List.getElem?_eq_none (by simp; omega)]; rfl
    refine ⟨Or.inr ⟨l, ts ++ [t], hi, h4⟩, ?_⟩
    rw [hi, ← h2, h3]
    simp only [groups, groupsFrom_append]
    exact addAll_tag _ _ _

/-- The trace specification computes what is on the pages. -/
theorem exec_groups (h : List Op) (hs : ∀ k, .setPage k ∉ h) {d : Doc} (hc : Cv d) (hn : NS d.view) :
    groups (exec d h).view.items = drawn (groups d.view.items) (h.zip (outcomes d h)) := by
  induction h generalizing d with
  | nil => rfl
  | cons op h ih =>
    simp only [exec, outcomes, List.zip_cons_cons]
    have hs' : ∀ k, .setPage k ∉ h := fun k hk => hs k (List.mem_cons_of_mem _ hk)
    rcases step_view hc op with ⟨rfl, hv, hcv⟩ | ⟨k, rfl⟩ | ⟨t, ht, hcv, hd⟩ | ⟨h1, h2, hv, hcv⟩
    · rw [ih hs' hcv (by rw [hv]; exact Or.inl rfl), hv]
      show _ = drawn (groups d.view.items ++ [[]]) _
      simp only [groups, groupsFrom_append]
      rfl
    · exact absurd (List.mem_cons_self ..) (hs k)
    · have hna : op ≠ .addPage := by rintro rfl; simp [Op.tag?] at ht
      rcases hd with ⟨ho, hv⟩ | ⟨ho, hv⟩
      · rw [ih hs' hcv (by rw [hv]; exact (hn.draw t).1), hv, (hn.draw t).2, ho]
        cases op <;> simp [Op.tag?] at ht <;> subst ht <;> rfl
      · have hg : NS (step d op).1.view ∧ groups (step d op).1.view.items = groups d.view.items := by
          rcases hv with hv | hv
          · rw [hv]; exact ⟨hn, rfl⟩
          · rw [hv]; exact hn.touch
        rw [ih hs' hcv hg.1, hg.2]
        cases hr : (step d op).2 with
        | ok => exact absurd hr ho
        | err => cases op <;> simp [Op.tag?] at ht <;> rfl
        | panic => cases op <;> simp [Op.tag?] at ht <;> rfl
    · rw [ih hs' hcv (by rw [hv]; exact hn), hv]
      cases hr : (step d op).2 with
      | ok => cases op <;> simp [Op.tag?] at h2 <;> first | exact absurd rfl h1 | rfl
      | err => cases op <;> first | exact absurd rfl h1 | rfl
      | panic => cases op <;> first | exact absurd rfl h1 | rfl

def tagsAt (l : List Obj) (j : Nat) : List Nat :=
  match l[j]? with
  | some (.content es) => es.map (·.tag)
  | _ => []

theorem lastPg_eq (l : List Obj) (k : Nat) : lastPg l k = (pgs l k).getLast? := by
  induction k with
  | zero => rfl
  | succ k ih =>
    rw [pgs_succ, lastPg]
    split
    · simp
    · simpa using ih

theorem mem_pgs {l : List Obj} {k i : Nat} : i ∈ pgs l k ↔ i < k ∧ pg l i = true := by simp [pgs]

theorem mem_cts_lt {l : List Obj} {p k i : Nat} (h : i ∈ cts l p k) : i < k := by
  simp [cts] at h; exact h.1

theorem pg_append_left {l m : List Obj} {i : Nat} (h : i < l.length) : pg (l ++ m) i = pg l i := by
  unfold pg; rw [List.getElem?_append_left h]
theorem ct_append_left {l m : List Obj} {i : Nat} (h : i < l.length) : ct (l ++ m) i = ct l i := by
  unfold ct; rw [List.getElem?_append_left h]

theorem pgs_snoc (l : List Obj) (o : Obj) :
    pgs (l ++ [o]) (l ++ [o]).length = pgs l l.length ++ (if o.isPg then [l.length] else []) := by
  have hl : (l ++ [o]).length = l.length + 1 := by simp
  have hp : pg (l ++ [o]) l.length = o.isPg := by simp [pg]
  rw [hl, pgs_succ, hp, pgs_congr (fun i hi => pg_append_left hi)]

theorem cts_snoc (l : List Obj) (o : Obj) (p : Nat) : cts (l ++ [o]) p (l ++ [o]).length =
    cts l p l.length ++ (if o.isCt && lastPg l l.length == some p then [l.length] else []) := by
  have hl : (l ++ [o]).length = l.length + 1 := by simp
  have hp : ct (l ++ [o]) l.length = o.isCt := by simp [ct]
  rw [hl, cts_succ, hp, lastPg_congr (fun i hi => pg_append_left hi),
    cts_congr (fun i hi => pg_append_left hi) (fun i hi => ct_append_left hi)]

theorem tagsAt_append_left {l m : List Obj} {i : Nat} (h : i < l.length) : tagsAt (l ++ m) i = tagsAt l i := by
  unfold tagsAt; rw [List.getElem?_append_left h]

theorem nodup_pgs (l : List Obj) (k : Nat) : (pgs l k).Nodup := List.Pairwise.filter _ List.nodup_range

/-- The page contents computed by `prepare` are the groups. -/
theorem groups_eq (l : List Obj) : groups (l.filterMap Obj.item) =
    (pgs l l.length).map (fun p => (cts l p l.length).flatMap (tagsAt l)) := by
  induction l using List.reverseRecOn with
  | nil => rfl
  | append_singleton l o ih =>
    have hold : ∀ p, (cts l p l.length).flatMap (tagsAt (l ++ [o])) = (cts l p l.length).flatMap (tagsAt l) := by
      intro p
      rw [List.flatMap_def, List.flatMap_def]
      congr 1
      apply List.map_congr_left
      intro i hi
      exact tagsAt_append_left (mem_cts_lt hi)
    rw [List.filterMap_append]
    simp only [groups, groupsFrom_append] at ih ⊢
    rw [ih, pgs_snoc]
    by_cases hp : o.isPg = true
    · obtain ⟨c, a, r, rfl⟩ := isPg_iff.1 hp
      have : [Obj.page c a r].filterMap Obj.item = [.page] := rfl
      rw [this]
      simp only [Obj.isPg, if_true, List.map_append, groupsFrom]
      congr 1
      · apply List.map_congr_left
        intro p _
        rw [cts_snoc]
        simp only [Obj.isCt, Bool.false_and]
        simp [hold p]
      · have : cts (l ++ [Obj.page c a r]) l.length (l ++ [Obj.page c a r]).length = [] := by
          rw [cts_snoc]
          simp only [Obj.isCt, Bool.false_and]
          simp only [Bool.false_eq_true, if_false, List.append_nil]
          rw [cts, List.filter_eq_nil_iff]
          intro j hj
          simp only [Bool.and_eq_true, beq_iff_eq, not_and]
          intro _ he
          rw [lastPg_eq] at he
          have hm := (mem_pgs.1 (List.mem_of_getLast? he)).1
          simp at hj
          omega
        simp only [List.map_cons, List.map_nil, this, List.flatMap_nil]
    · have hp' : o.isPg = false := by simpa using hp
      rw [hp']
      simp only [Bool.false_eq_true, if_false, List.append_nil]
      by_cases hc : o.isCt = true
      · obtain ⟨es, rfl⟩ := isCt_iff.1 hc
        have : [Obj.content es].filterMap Obj.item = [.content (es.map (·.tag))] := rfl
        rw [this]
        simp only [groupsFrom]
        have hlast := lastPg_eq l l.length
        have hnd := nodup_pgs l l.length
        rcases List.eq_nil_or_concat (pgs l l.length) with he | ⟨ps, q, he⟩
        · rw [he]; rfl
        · rw [List.concat_eq_append] at he
          rw [he] at hlast hnd ⊢
          simp at hlast
          rw [List.map_append, List.map_append]
          simp only [List.map_cons, List.map_nil]
          rw [addAllToLast_snoc]
          congr 1
          · apply List.map_congr_left
            intro p hp
            rw [cts_snoc, hlast]
            have hne : q ≠ p := by
              rintro rfl
              rw [List.nodup_append] at hnd
              exact hnd.2.2 q hp q (by simp) rfl
            simp [hne, hold p]
          · rw [cts_snoc, hlast]
            simp [Obj.isCt, hold q, tagsAt]
      · have hc' : o.isCt = false := by simpa using hc
        have : [o].filterMap Obj.item = [] := by
          cases o <;> simp [Obj.isPg, Obj.isCt] at hp' hc' <;> rfl
        rw [this]
        simp only [groupsFrom]
        apply List.map_congr_left
        intro p _
        rw [cts_snoc, hc']
        simp [hold p]

end Verif.Doc
