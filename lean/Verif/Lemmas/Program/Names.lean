import Verif.Lemmas.Content.Styles
import Verif.Lemmas.Doc.Current
import Verif.Lemmas.Doc.Last
import Verif.Lemmas.Program.Pages
/- Every resource an item of a program's content names is in the document's resource dictionary. -/
namespace Verif.Program
open Doc (NoUL Base Reachable Grow Named)

def GsNamed (d : Doc.Doc) (n : Nat) : Prop := ∃ i ∈ d.relGSs, n = i + 1
def FontNamed (d : Doc.Doc) (n : Nat) : Prop := NoUL d → ∃ r ∈ d.relFonts, n = r.count + 1
def ImageNamed (d : Doc.Doc) (n : Nat) : Prop := ∃ i ∈ d.relXobjs, n = i + 1
def SpaceNamed (d : Doc.Doc) (n : Nat) : Prop := ∃ r ∈ d.relCSs, n = r.count + 1

/-- The resources an item names are defined in `d`. -/
def ItemNamed (d : Doc.Doc) : Content.Item → Prop
  | .text t => FontNamed d t.font ∧ ∀ n ∈ t.opt.ext, GsNamed d n
  | .line _ _ _ _ _ ext | .rectangle _ _ _ _ _ _ ext | .polygon _ _ _ ext => ∀ n ∈ ext, GsNamed d n
  | .image i => ImageNamed d (i.index + 1) ∧ ∀ n ∈ i.ext, GsNamed d n
  | .colourSpace n => SpaceNamed d (n + 1)
  | _ => True

theorem ItemNamed.grow {d d' : Doc.Doc} (g : Grow d d') (hx : Doc.Ext d d') {i : Content.Item} (h : ItemNamed d i) : ItemNamed d' i := by
  have hg : ∀ n, GsNamed d n → GsNamed d' n := fun n ⟨i, a, b⟩ => ⟨i, g.gss.subset a, b⟩
  cases i with
  | text t => exact ⟨fun hu => let ⟨r, a, b⟩ := h.1 (hu.ext hx); ⟨r, g.fonts.subset a, b⟩, fun n hn => hg n (h.2 n hn)⟩
  | image i => exact ⟨let ⟨r, a, b⟩ := h.1; ⟨r, g.xobjs.subset a, b⟩, fun n hn => hg n (h.2 n hn)⟩
  | colourSpace n => exact let ⟨r, a, b⟩ := h; ⟨r, g.css.subset a, b⟩
  | line => exact fun n hn => hg n (h n hn)
  | rectangle => exact fun n hn => hg n (h n hn)
  | polygon => exact fun n hn => hg n (h n hn)
  | _ => trivial

/-- What the two halves of the state say about resources. -/
structure Res (s : St) : Prop where
  reach : Reachable s.doc
  items : ∀ p ∈ s.content.pages, ∀ i ∈ p, ItemNamed s.doc i
  font : ∀ i c, s.doc.curFont = some (i, c) → s.content.cur.font = c
  ext : s.content.cur.ext = s.doc.curTr

theorem res_start (prot : Bool) (ml mt : ℚ) : Res (start prot ml mt) where
  reach := ⟨prot, [], rfl⟩
  items := by simp [start, Content.start]
  font := by simp [start, Doc.start]
  ext := rfl

/-- The resources a drawing call will name are defined. -/
def CallNamed (d : Doc.Doc) (cur : Content.Cur) : Content.Call → Prop
  | .text _ | .cell _ _ => FontNamed d (cur.font + 1)
  | .cellWithOption _ _ opt tr => FontNamed d (cur.font + 1) ∧ ∀ n ∈ opt.ext ++ (tr.getD cur.ext).toList, GsNamed d n
  | .line _ _ _ _ | .polygon _ _ => ∀ n ∈ cur.ext.toList, GsNamed d n
  | .rectLowerOpt _ _ _ _ _ tr | .rectUpperOpt _ _ _ _ _ tr => ∀ n ∈ (tr.getD cur.ext).toList, GsNamed d n
  | .image i => ItemNamed d (.image i)
  | .setColourSpace n => SpaceNamed d (n + 1)
  | _ => True

theorem mem_set_items {pages : List (List Content.Item)} {k : Nat} {items : List Content.Item} {P : Content.Item → Prop}
    (h : ∀ p ∈ pages, ∀ i ∈ p, P i) (hi : ∀ i ∈ items, P i) : ∀ p ∈ pages.set k items, ∀ i ∈ p, P i := by
  intro p hp i hip
  rcases List.mem_or_eq_of_mem_set hp with hp | rfl
  · exact h p hp i hip
  · exact hi i hip

theorem items_step {e : Content.Env} {d : Doc.Doc} {s s' : Content.St} {k : Content.Call} (h : Content.step e s k = some s')
    (hk : CallNamed d s.cur k) (hs : ∀ p ∈ s.pages, ∀ i ∈ p, ItemNamed d i) : ∀ p ∈ s'.pages, ∀ i ∈ p, ItemNamed d i := by
  have cur : ∀ i ∈ s.pages.getD s.page [], ItemNamed d i := by
    intro i hi
    rw [List.getD_eq_getElem?_getD] at hi
    cases hx : s.pages[s.page]? with
    | none => simp [hx] at hi
    | some p => rw [hx] at hi; exact hs p (List.mem_of_getElem? hx) i hi
  have add : ∀ i : Content.Item, ItemNamed d i → ∀ p ∈ s.pages.modify s.page (· ++ [i]), ∀ j ∈ p, ItemNamed d j := by
    intro i hi
    rw [Content.modify_eq_set]
    refine mem_set_items hs (fun j hj => ?_)
    rw [List.mem_append, List.mem_singleton] at hj
    rcases hj with hj | rfl
    · exact cur j hj
    · exact hi
  have txt : ∀ (t : Content.TextItem) (text : List Nat), ItemNamed d (.text t) → s.addText e t text = some s' →
      ∀ p ∈ s'.pages, ∀ i ∈ p, ItemNamed d i := by
    intro t text hn h
    unfold Content.St.addText at h
    split at h
    · exact absurd h (by simp)
    · next items x y hap =>
      obtain rfl := Option.some.inj h
      obtain ⟨pre, c', t', h1, hx, rfl, -⟩ := Content.append_cases hap
      have hc' : ItemNamed d (.text c') := by
        rcases h1 with ⟨h1, _⟩ | ⟨_, h1, _⟩
        · exact cur _ (by rw [h1]; simp)
        · rw [h1]; exact hn
      refine mem_set_items hs (fun j hj => ?_)
      rw [List.mem_append, List.mem_singleton] at hj
      rcases hj with hj | rfl
      · refine cur j ?_
        rcases h1 with ⟨h1, _⟩ | ⟨h1, _⟩ <;> rw [h1] <;> simp [hj]
      · unfold Content.extend at hx
        obtain ⟨r, _, rfl⟩ := Option.map_eq_some_iff.1 hx
        exact hc'
  cases k with
  | addPage x =>
    simp only [Content.step, Option.some.injEq] at h; subst h
    intro p hp i hi
    rcases List.mem_append.1 hp with hp | hp
    · exact hs p hp i hi
    · rw [List.mem_singleton] at hp; subst hp; simp at hi
  | setPage n => simp only [Content.step, Option.some.injEq] at h; subst h; split <;> exact hs
  | text t => exact txt _ _ (show ItemNamed d (.text (Content.newText s.cur false none {})) from ⟨hk, by simp [Content.newText]⟩) h
  | cell r t =>
    exact txt _ _ (show ItemNamed d (.text (Content.newText s.cur true (Content.rectPoints e r) { align := 8 ||| 4, float := 2 })) from
      ⟨hk, by simp [Content.newText]⟩) h
  | cellWithOption r t o tr => exact txt _ _ ⟨hk.1, hk.2⟩ h
  | _ =>
    simp only [Content.step, Option.some.injEq] at h; subst h
    first
    | exact hs
    | exact add _ hk
    | exact add _ trivial
    | exact add _ (by simp [ItemNamed])

/-- The cursor's font and transparency after a drawing call. -/
def fontAfter (cur : Content.Cur) : Content.Call → Nat
  | .setFont f _ _ => f
  | _ => cur.font
def extAfter (cur : Content.Cur) : Content.Call → Option Nat
  | .setTransparency n => n
  | _ => cur.ext

theorem cur_step {e : Content.Env} {s s' : Content.St} {k : Content.Call} (h : Content.step e s k = some s') :
    s'.cur.font = fontAfter s.cur k ∧ s'.cur.ext = extAfter s.cur k := by
  cases k with
  | setPage n => simp only [Content.step, Option.some.injEq] at h; subst h; split <;> exact ⟨rfl, rfl⟩
  | text t => obtain ⟨x, y, hx⟩ := Content.addText_cur h; rw [hx]; exact ⟨rfl, rfl⟩
  | cell r t => obtain ⟨x, y, hx⟩ := Content.addText_cur h; rw [hx]; exact ⟨rfl, rfl⟩
  | cellWithOption r t o tr => obtain ⟨x, y, hx⟩ := Content.addText_cur h; rw [hx]; exact ⟨rfl, rfl⟩
  | _ => simp only [Content.step, Option.some.injEq] at h; subst h; exact ⟨rfl, rfl⟩

/-- The entry made last names what is defined. -/
theorem last_named {d : Doc.Doc} (h : Reachable d) : Named d (d.lastEntry.getD { tag := 0 }) := by
  cases hl : d.lastEntry with
  | none => exact ⟨by simp, by simp, by simp, by simp⟩
  | some en =>
    unfold Doc.Doc.lastEntry at hl
    split at hl
    · simp at hl
    · next i _ =>
      split at hl
      · next es ho => exact (Doc.reachable_names h).named i _ ho en (by simpa [Doc.Obj.entries] using List.mem_of_getLast? hl)
      · simp at hl

theorem cur_gs {d : Doc.Doc} (h : Reachable d) : ∀ n ∈ d.curTr.toList, GsNamed d n := by
  intro n hn
  obtain ⟨k, i, rfl, hi⟩ := (Doc.reachable_base h).curTr n (by simpa using hn)
  exact ⟨i, by rw [(Doc.reachable_res h).gs]; exact List.mem_map.2 ⟨_, hi, rfl⟩, rfl⟩

theorem cur_font {d : Doc.Doc} (h : Reachable d) {i c : Nat} (hc : d.curFont = some (i, c)) : FontNamed d (c + 1) := fun hu =>
  let ⟨r, h1, _, h2⟩ := (Doc.reachable_names h).cur hu i c hc; ⟨r, h1, by rw [h2]⟩

/-- The state after a document operation and a drawing call. -/
theorem Res.make {e : Content.Env} {s s' : St} (h : Res s) (op : Doc.Op) (hd : s'.doc = (Doc.step s.doc op).1) (k : Content.Call)
    (hk : Content.step e s.content k = some s'.content) (hn : CallNamed s'.doc s.content.cur k)
    (hf : ∀ i c, s'.doc.curFont = some (i, c) → fontAfter s.content.cur k = c) (he : extAfter s.content.cur k = s'.doc.curTr) : Res s' where
  reach := hd ▸ h.reach.step op
  items := items_step hk hn fun p hp i hi => (h.items p hp i hi).grow (hd ▸ Doc.grow_step (Doc.reachable_base h.reach) op) (hd ▸ Doc.step_ext s.doc op)
  font := fun i c hc => by rw [(cur_step hk).1]; exact hf i c hc
  ext := by rw [(cur_step hk).2]; exact he

/-- The state after a document operation without a drawing call. -/
theorem Res.keep {s s' : St} (h : Res s) (op : Doc.Op) (hd : s'.doc = (Doc.step s.doc op).1) (hk : s'.content = s.content)
    (hc : Doc.CU s.doc s'.doc) : Res s' where
  reach := hd ▸ h.reach.step op
  items := fun p hp i hi => by
    rw [hk] at hp
    exact (h.items p hp i hi).grow (hd ▸ Doc.grow_step (Doc.reachable_base h.reach) op) (hd ▸ Doc.step_ext s.doc op)
  font := fun i c hf => by rw [hk]; exact h.font i c (by rw [← hc.2]; exact hf)
  ext := by rw [hk, hc.1]; exact h.ext

/-- Operations other than SetFont and the transparency settings. -/
def Other (op : Doc.Op) : Prop := (∀ t, op ≠ .setTransparency t) ∧ op ≠ .clearTransparency ∧ ∀ f s, op ≠ .setFont f s

theorem object_other {op : Doc.Op} (h : objectOp op = true) : Other op := by
  cases op <;> simp [objectOp] at h <;> exact ⟨by simp, by simp, by simp⟩

theorem Other.cu {op : Doc.Op} (h : Other op) (d : Doc.Doc) : Doc.CU d (Doc.step d op).1 := Doc.cu_step d op h.1 h.2.1 h.2.2

theorem own_gs {d : Doc.Doc} {en : Doc.Entry} (hn : Named d en) {cur : Option Nat} (hcur : ∀ n ∈ cur.toList, GsNamed d n) (tr : Option Doc.Tr) :
    ∀ n ∈ ((ownTr tr en).getD cur).toList, GsNamed d n := by
  intro n hm
  unfold ownTr at hm
  cases tr with
  | none => exact hcur n hm
  | some t => exact hn.gs n (List.mem_of_mem_head? (by simpa using hm))

theorem Res.step {e : Content.Env} {s s' : St} {c : Call} (h : Res s) (hs : step e s c = some s') : Res s' := by
  cases step_made hs with
  | pen a1 k a2 a3 a4 a5 =>
    cases c with
    | plain x =>
      simp only [contentCall, Option.some.injEq] at a2; subst a2
      simp only [docOp, Option.map_eq_some_iff] at a1
      obtain ⟨b, hb, hb'⟩ := a1
      have hb : plainCall x = some none := by cases b <;> simp_all
      have q : CallNamed s.doc s.content.cur x ∧ fontAfter s.content.cur x = s.content.cur.font ∧ extAfter s.content.cur x = s.content.cur.ext := by
        cases x <;> simp [plainCall] at hb <;> exact ⟨trivial, rfl, rfl⟩
      refine ⟨a3 ▸ h.reach, by rw [a3]; exact items_step a4 q.1 h.items, fun i c hc => ?_, ?_⟩
      · rw [(cur_step a4).1, q.2.1]; exact h.font i c (a3 ▸ hc)
      · rw [(cur_step a4).2, q.2.2, a3]; exact h.ext
    | object o => simp only [docOp] at a1; split at a1 <;> simp at a1
    | _ => simp [docOp] at a1
  | err op a1 a2 a3 a5 =>
    refine h.keep op (by rw [a2]) a3 ?_
    have hd : s'.doc = (Doc.step s.doc op).1 := by rw [a2]
    have ho : (Doc.step s.doc op).2 = .err := by rw [a2]
    rw [hd]
    cases op with
    | setTransparency t => simp [Doc.step] at ho
    | clearTransparency => simp [Doc.step] at ho
    | setFont f st =>
      simp only [Doc.step, Doc.Doc.setFont] at ho ⊢
      split
      · next heq => rw [heq] at ho; simp at ho
      · exact Doc.CU.refl _
    | _ => exact Other.cu ⟨by simp, by simp, by simp⟩ _
  | quiet op a1 a2 a3 a4 a5 =>
    refine h.keep op (by rw [a2]) a4 ?_
    have hd : s'.doc = (Doc.step s.doc op).1 := by rw [a2]
    rw [hd]
    refine Other.cu ?_ _
    cases c with
    | object o =>
      simp only [docOp] at a1
      split at a1
      · next ho => simp only [Option.some.injEq] at a1; subst a1; exact object_other ho
      · simp at a1
    | setColourSpace n => simp only [docOp, Option.some.injEq] at a1; subst a1; exact ⟨by simp, by simp, by simp⟩
    | image a b => simp only [docOp, Option.some.injEq] at a1; subst a1; exact ⟨by simp, by simp, by simp⟩
    | imageOpt a b c d => simp only [docOp, Option.some.injEq] at a1; subst a1; exact ⟨by simp, by simp, by simp⟩
    | _ => simp [contentCall] at a3
  | both op a1 a2 k a3 a4 a5 =>
    have hd : s'.doc = (Doc.step s.doc op).1 := by rw [a2]
    have ho : (Doc.step s.doc op).2 = .ok := by rw [a2]
    have hr' : Reachable s'.doc := hd ▸ h.reach.step op
    have hlast := last_named hr'
    -- what other calls need: the resources they name
    have other : Other op → fontAfter s.content.cur k = s.content.cur.font → extAfter s.content.cur k = s.content.cur.ext →
        CallNamed s'.doc s.content.cur k → Res s' := fun q q1 q2 q3 => by
      have cu := q.cu s.doc
      rw [← hd] at cu
      refine h.make op hd k a4 q3 (fun i c hc => ?_) ?_
      · rw [q1]; exact h.font i c (by rw [← cu.2]; exact hc)
      · rw [q2, cu.1]; exact h.ext
    have gs : Other op → ∀ n ∈ s.content.cur.ext.toList, GsNamed s'.doc n := fun q => by
      have cu := q.cu s.doc
      rw [← hd] at cu
      rw [h.ext, ← cu.1]
      exact cur_gs hr'
    have fnt : Other op → s'.doc.curFont ≠ none → FontNamed s'.doc (s.content.cur.font + 1) := fun q hf => by
      have cu := q.cu s.doc
      rw [← hd] at cu
      obtain ⟨⟨i, c⟩, hc⟩ := Option.ne_none_iff_exists'.1 hf
      rw [h.font i c (by rw [← cu.2]; exact hc)]
      exact cur_font hr' hc
    cases c with
    | object o => simp [contentCall] at a3
    | plain x =>
      simp only [contentCall, Option.some.injEq] at a3; subst a3
      simp only [docOp, Option.map_eq_some_iff] at a1
      obtain ⟨b, hb, b', _, rfl⟩ := a1
      have q : CallNamed s'.doc s.content.cur x ∧ fontAfter s.content.cur x = s.content.cur.font ∧ extAfter s.content.cur x = s.content.cur.ext := by
        cases x <;> simp [plainCall] at hb <;> exact ⟨trivial, rfl, rfl⟩
      exact other ⟨by simp, by simp, by simp⟩ q.2.1 q.2.2 q.1
    | addPage x =>
      simp only [contentCall, Option.some.injEq] at a3; subst a3
      simp only [docOp, Option.some.injEq] at a1; subst a1
      exact other ⟨by simp, by simp, by simp⟩ rfl rfl trivial
    | setFont f st size =>
      simp only [contentCall, Option.some.injEq] at a3; subst a3
      simp only [docOp, Option.some.injEq] at a1; subst a1
      refine h.make _ hd _ a4 trivial (fun i c hc => by simp [fontAfter, hc]) ?_
      rw [show extAfter s.content.cur _ = s.content.cur.ext from rfl, hd, Doc.CU.setFont]; exact h.ext
    | setTransparency t =>
      simp only [contentCall, Option.some.injEq] at a3; subst a3
      simp only [docOp, Option.some.injEq] at a1; subst a1
      refine h.make _ hd _ a4 trivial (fun i c hc => ?_) rfl
      rw [hd, Doc.CU.setTr] at hc
      exact h.font i c hc
    | clearTransparency =>
      simp only [contentCall, Option.some.injEq] at a3; subst a3
      simp only [docOp, Option.some.injEq] at a1; subst a1
      refine h.make _ hd _ a4 trivial (fun i c hc => ?_) ?_
      · rw [hd] at hc; exact h.font i c hc
      · rw [hd]; rfl
    | setColourSpace n =>
      simp only [contentCall, Option.map_eq_some_iff] at a3
      obtain ⟨m, hm, rfl⟩ := a3
      simp only [docOp, Option.some.injEq] at a1; subst a1
      obtain ⟨r, q1, q2⟩ := hlast.cs m hm
      exact other ⟨by simp, by simp, by simp⟩ rfl rfl ⟨r, q1, by omega⟩
    | text t =>
      simp only [contentCall, Option.some.injEq] at a3; subst a3
      simp only [docOp, Option.some.injEq] at a1; subst a1
      refine other ⟨by simp, by simp, by simp⟩ rfl rfl (fnt ⟨by simp, by simp, by simp⟩ ?_)
      rw [hd, ((show Other (.text s.next) from ⟨by simp, by simp, by simp⟩).cu s.doc).2]
      intro hf
      simp [Doc.step, hf] at ho
    | cell r t =>
      simp only [contentCall, Option.some.injEq] at a3; subst a3
      simp only [docOp, Option.some.injEq] at a1; subst a1
      refine other ⟨by simp, by simp, by simp⟩ rfl rfl (fnt ⟨by simp, by simp, by simp⟩ ?_)
      rw [hd, ((show Other (.text s.next) from ⟨by simp, by simp, by simp⟩).cu s.doc).2]
      intro hf
      simp [Doc.step, hf] at ho
    | cellWithOption r t opt tr =>
      simp only [contentCall, Option.some.injEq] at a3; subst a3
      simp only [docOp, Option.some.injEq] at a1; subst a1
      have q : Other (.cell s.next tr) := ⟨by simp, by simp, by simp⟩
      refine other q rfl rfl ⟨fnt q ?_, fun n hn => ?_⟩
      rotate_left
      · rcases List.mem_append.1 hn with hn | hn
        · split at hn
          · simp at hn
          · exact hlast.gs n hn
        · exact own_gs hlast (gs q) tr n hn
      rw [hd, (q.cu s.doc).2]
      intro hf
      have : (s.doc.cachedTransparency tr).1.curFont = none := by rw [(Doc.CU.cachedTransparency s.doc tr).2]; exact hf
      simp [Doc.step, this] at ho
    | line x1 y1 x2 y2 =>
      simp only [contentCall, Option.some.injEq] at a3; subst a3
      simp only [docOp, Option.some.injEq] at a1; subst a1
      exact other ⟨by simp, by simp, by simp⟩ rfl rfl (gs ⟨by simp, by simp, by simp⟩)
    | polygon pts st =>
      simp only [contentCall, Option.some.injEq] at a3; subst a3
      simp only [docOp, Option.some.injEq] at a1; subst a1
      exact other ⟨by simp, by simp, by simp⟩ rfl rfl (gs ⟨by simp, by simp, by simp⟩)
    | rectLowerOpt x y w hh st tr =>
      simp only [contentCall, Option.some.injEq] at a3; subst a3
      simp only [docOp, Option.some.injEq] at a1; subst a1
      exact other ⟨by simp, by simp, by simp⟩ rfl rfl (own_gs hlast (gs ⟨by simp, by simp, by simp⟩) tr)
    | rectUpperOpt x y w hh st tr =>
      simp only [contentCall, Option.some.injEq] at a3; subst a3
      simp only [docOp, Option.some.injEq] at a1; subst a1
      exact other ⟨by simp, by simp, by simp⟩ rfl rfl (own_gs hlast (gs ⟨by simp, by simp, by simp⟩) tr)
    | image img i =>
      simp only [contentCall, Option.map_eq_some_iff] at a3
      obtain ⟨m, hm, rfl⟩ := a3
      simp only [docOp, Option.some.injEq] at a1; subst a1
      obtain ⟨r, q1, q2⟩ := hlast.xobj m hm
      exact other ⟨by simp, by simp, by simp⟩ rfl rfl ⟨⟨r, q1, by subst q2; rfl⟩, hlast.gs⟩
    | imageOpt img i tr mask =>
      simp only [contentCall, Option.map_eq_some_iff] at a3
      obtain ⟨m, hm, rfl⟩ := a3
      simp only [docOp, Option.some.injEq] at a1; subst a1
      obtain ⟨r, q1, q2⟩ := hlast.xobj m hm
      exact other ⟨by simp, by simp, by simp⟩ rfl rfl ⟨⟨r, q1, by subst q2; rfl⟩, hlast.gs⟩

theorem Res.steps {e : Content.Env} : ∀ (prog : List Call) (s s' : St), Res s → steps e s prog = some s' → Res s'
  | [], s, s', h, hs => by
    obtain rfl : s = s' := by simpa [Program.steps] using hs
    exact h
  | c :: prog, s, s', h, hs => by
    obtain ⟨s1, h1, h2⟩ := steps_cons hs
    exact Res.steps prog s1 s' (h.step h1) h2

end Verif.Program
