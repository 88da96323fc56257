import Verif.Lemmas.Doc.Trans
import Verif.Lemmas.Program.Names
import Verif.Spec.Canvas
import Verif.Spec.Used
/- What the figures of a program's canvas are drawn with. -/
set_option maxRecDepth 10000
namespace Verif.Program
open Doc (callSetting MaskAt TrOK Reachable Grow Ext)
open Canvas (Figure Sheet Pen)

/-- The mask among the graphics states of a figure; `W` is the whole program. -/
def MaskOK (W : List Call) (d : Doc.Doc) (gs : List Nat) : Option MaskUse → Prop
  | none => gs = []
  | some m => ∃ n tag gs', gs = [n] ∧ MaskAt d tag n m.picture gs' ∧ d.AppliesAlpha gs' m.setting ∧
      ∀ x, maskItem W { tag := 0, xobj := some (x + 1), gs := gs', mask := tag } =
        [.image { m.item with index := x, ext := gs', pageHeight := m.height }]

def GsOK (W : List Call) (d : Doc.Doc) (ext : List Nat) (u : Used) : Prop :=
  ∃ gs1 gs2, ext = gs1 ++ gs2 ∧ d.AppliesAlpha gs1 u.setting ∧ MaskOK W d gs2 u.mask

def SpaceOK (d : Doc.Doc) (c : Paint.Colour) : Option Nat → Prop
  | none => ∀ n, c ≠ .named n
  | some name => ∃ r ∈ d.relCSs, r.name = name ∧ c = .named (r.count + 1)

def PictureOK (d : Doc.Doc) (n id : Nat) : Prop := ∃ i info, n = i + 1 ∧ i ∈ d.relXobjs ∧ d.idents[i]? = some (.image id info none none)

/-- A figure is drawn with what was asked for. -/
def FigOK (W : List Call) (d : Doc.Doc) : Figure → Used → Prop
  | .path _ _ pen ext, u => u.picture = none ∧ GsOK W d ext u ∧ SpaceOK d pen.stroke u.space
  | .image n _ ext, u => ∃ id, u.picture = some id ∧ PictureOK d n id ∧ GsOK W d ext u
  | .template _ _, u => u = {}

variable {W : List Call}

theorem MaskOK.ext {d d' : Doc.Doc} (h : Ext d d') {gs : List Nat} {m : Option MaskUse} (hm : MaskOK W d gs m) : MaskOK W d' gs m := by
  cases m with
  | none => exact hm
  | some p => obtain ⟨n, tag, gs', h1, h2, h3, h4⟩ := hm; exact ⟨n, tag, gs', h1, h2.ext h, Doc.AppliesAlpha.ext h h3, h4⟩

theorem GsOK.ext {d d' : Doc.Doc} (h : Ext d d') {gs : List Nat} {u : Used} (hm : GsOK W d gs u) : GsOK W d' gs u := by
  obtain ⟨a, b, h1, h2, h3⟩ := hm
  exact ⟨a, b, h1, Doc.AppliesAlpha.ext h h2, h3.ext h⟩

theorem SpaceOK.grow {d d' : Doc.Doc} (g : Grow d d') {c : Paint.Colour} {s : Option Nat} (h : SpaceOK d c s) : SpaceOK d' c s := by
  cases s with
  | none => exact h
  | some n => obtain ⟨r, h1, h2⟩ := h; exact ⟨r, g.css.subset h1, h2⟩

theorem PictureOK.grow {d d' : Doc.Doc} (g : Grow d d') (hx : Ext d d') {n id : Nat} (h : PictureOK d n id) : PictureOK d' n id := by
  obtain ⟨i, info, h1, h2, h3⟩ := h
  exact ⟨i, info, h1, g.xobjs.subset h2, Doc.prefix_get hx h3⟩

theorem FigOK.grow {d d' : Doc.Doc} (g : Grow d d') (hx : Ext d d') {f : Figure} {u : Used} (h : FigOK W d f u) : FigOK W d' f u := by
  cases f with
  | path k p pen ext => exact ⟨h.1, h.2.1.ext hx, h.2.2.grow g⟩
  | image n m ext => obtain ⟨id, h1, h2, h3⟩ := h; exact ⟨id, h1, h2.grow g hx, h3.ext hx⟩
  | template s m => exact h

/-! ### The canvas -/

/-- The figures of a sheet. -/
def figs (c : Canvas.Canvas) (k : Nat) : List Figure := ((c.sheets[k]?).map (·.figs)).getD []

/-- What the canvas and the document have in common while page `n` is drawn. -/
structure Inv (s : St) (c : Canvas.Canvas) (f : Effect) (n : Nat) : Prop where
  reach : Reachable s.doc
  tr : TrOK s.doc f.setting
  trans : c.trans = s.doc.curTr
  cur : c.cur = n
  len : c.sheets.length = n + 1
  pen : ∀ sh : Sheet, c.sheets[n]? = some sh → SpaceOK s.doc sh.pen.stroke f.space ∧
    List.Forall₂ (fun (p : Pen) x => SpaceOK s.doc p.stroke x) sh.saved f.saved

theorem inv_start (prot : Bool) (ml mt : ℚ) : Inv (start prot ml mt) (Canvas.blank 0) {} 0 where
  reach := ⟨prot, [], rfl⟩
  tr := ⟨rfl, by simp [start, Doc.start]⟩
  trans := rfl
  cur := rfl
  len := rfl
  pen := by
    intro sh h
    simp [Canvas.blank] at h
    subst h
    exact ⟨by simp [SpaceOK], .nil⟩

/-- A change of the current sheet. -/
theorem on_spec {c c1 : Canvas.Canvas} {f : Sheet → Option Sheet} (h : c.on f = some c1) :
    ∃ sh sh', c.sheets[c.cur]? = some sh ∧ f sh = some sh' ∧ c1 = { c with sheets := c.sheets.set c.cur sh' } := by
  unfold Canvas.Canvas.on at h
  split at h
  · exact absurd h (by simp)
  · next sh hs =>
    obtain ⟨sh', h1, rfl⟩ := Option.map_eq_some_iff.1 h
    exact ⟨sh, sh', hs, h1, rfl⟩

/-- A drawing call on a sheet paints the call's figures and sets the pen. -/
structure Drew (W : List Call) (d : Doc.Doc) (sh sh' : Sheet) (f f' : Effect) (us : List Used) : Prop where
  figs : ∃ new, sh'.figs = sh.figs ++ new ∧ List.Forall₂ (FigOK W d) new us
  stroke : SpaceOK d sh'.pen.stroke f'.space
  saved : List.Forall₂ (fun (p : Pen) x => SpaceOK d p.stroke x) sh'.saved f'.saved

theorem figs_set {c : Canvas.Canvas} {sh sh' : Sheet} (h : c.sheets[c.cur]? = some sh) {new : List Figure} (hn : sh'.figs = sh.figs ++ new) (k : Nat) :
    figs { c with sheets := c.sheets.set c.cur sh' } k = figs c k ++ (if c.cur = k then new else []) := by
  unfold figs
  have hlt : c.cur < c.sheets.length := by
    by_cases hlt : c.cur < c.sheets.length
    · exact hlt
    · rw [List.getElem?_eq_none (by omega)] at h; simp at h
  by_cases hk : c.cur = k
  · subst hk
    simp [hlt, hn, List.getElem?_eq_getElem hlt] at h ⊢
    simp [h]
  · simp [List.getElem?_set_ne hk, hk]

/-- One drawing call whose effect on the sheet is known. -/
theorem Inv.drawn {s s' : St} {c c1 : Canvas.Canvas} {f f' : Effect} {n : Nat} (h : Inv s c f n) (op : Option Doc.Op)
    (hd : s'.doc = Doc.exec s.doc op.toList) (htr : ∀ o ∈ op, Other o ∧ ∀ t ∈ o.settings, t.sharp) (hset : f'.setting = f.setting)
    {x : Content.Call} (hx : (∀ h, x ≠ .addPage h) ∧ (∀ n, x ≠ .setPage n) ∧ ∀ n, x ≠ .setTransparency n)
    {e : Content.Env} (hc : c.call e x = some c1) {us : List Used}
    (hdrew : ∀ sh sh' : Sheet, SpaceOK s'.doc sh.pen.stroke f.space → List.Forall₂ (fun (p : Pen) x => SpaceOK s'.doc p.stroke x) sh.saved f.saved →
      sh.call e s.doc.curTr x = some sh' → Drew W s'.doc sh sh' f f' us) :
    Inv s' c1 f' n ∧ ∀ k, ∃ new, figs c1 k = figs c k ++ new ∧ List.Forall₂ (FigOK W s'.doc) new (if n = k then us else []) := by
  have hon : c.on (fun sh => sh.call e c.trans x) = some c1 := by
    cases x <;> first | exact hc | exact absurd rfl (hx.1 _) | exact absurd rfl (hx.2.1 _) | exact absurd rfl (hx.2.2 _)
  obtain ⟨sh, sh', h1, h2, rfl⟩ := on_spec hon
  have hcur := h.cur
  have hg : Grow s.doc s'.doc := by rw [hd]; exact Doc.grow_exec (Doc.reachable_base h.reach) _
  have hpen := h.pen sh (by rw [← hcur]; exact h1)
  rw [h.trans] at h2
  have q := hdrew sh sh' (hpen.1.grow hg) (hpen.2.imp fun _ _ a => a.grow hg) h2
  obtain ⟨new, n1, n2⟩ := q.figs
  refine ⟨⟨?_, ?_, ?_, hcur, by simpa using h.len, ?_⟩, fun k => ?_⟩
  · rw [hd]
    cases op with
    | none => exact h.reach
    | some o => exact h.reach.step o
  · rw [hd, hset]
    cases op with
    | none => exact h.tr
    | some o =>
      have := h.tr.step h.reach o (htr o rfl).2
      obtain ⟨a, b, _⟩ := (htr o rfl).1
      have e1 : Doc.inEffect f.setting [o] = f.setting := by
        cases o <;> first | rfl | exact absurd rfl (a _) | exact absurd rfl b
      rw [e1] at this; exact this
  · show c.trans = s'.doc.curTr
    rw [h.trans, hd]
    cases op with
    | none => rfl
    | some o => exact ((htr o rfl).1.cu s.doc).1.symm
  · intro sh2 hs2
    have hlt : c.cur < c.sheets.length := by have := h.len; omega
    simp only [hcur] at hs2 hlt
    simp [hlt] at hs2
    subst hs2
    exact ⟨q.stroke, q.saved⟩
  · by_cases hk : n = k
    · subst hk
      refine ⟨new, ?_, by rw [if_pos rfl]; exact n2⟩
      rw [figs_set h1 n1, if_pos hcur]
    · refine ⟨[], ?_, by rw [if_neg hk]; exact .nil⟩
      rw [figs_set h1 n1, if_neg (by rw [hcur]; exact hk)]


theorem Drew.same {d : Doc.Doc} {sh : Sheet} {f : Effect} (h1 : SpaceOK d sh.pen.stroke f.space)
    (h2 : List.Forall₂ (fun (p : Pen) x => SpaceOK d p.stroke x) sh.saved f.saved) : Drew W d sh sh f f [] :=
  ⟨⟨[], by simp, .nil⟩, h1, h2⟩

theorem Drew.one {d : Doc.Doc} {sh : Sheet} {f : Effect} (h1 : SpaceOK d sh.pen.stroke f.space)
    (h2 : List.Forall₂ (fun (p : Pen) x => SpaceOK d p.stroke x) sh.saved f.saved) (g : Figure) (u : Used) (hg : FigOK W d g u) :
    Drew W d sh { sh with figs := sh.figs ++ [g] } f f [u] :=
  ⟨⟨[g], rfl, .cons hg .nil⟩, h1, h2⟩

theorem gs_none (d : Doc.Doc) (u : Used) (h1 : u.setting = none) (h2 : u.mask = none) : GsOK W d [] u :=
  ⟨[], [], rfl, by rw [h1]; rfl, by rw [h2]; rfl⟩

/-- Calls without resources. -/
theorem plain_drew {d : Doc.Doc} {e : Content.Env} {f : Effect} {tr : Option Nat} {x : Content.Call} (hb : plainCall x ≠ none) (sh sh' : Sheet)
    (h1 : SpaceOK d sh.pen.stroke f.space) (h2 : List.Forall₂ (fun (p : Pen) x => SpaceOK d p.stroke x) sh.saved f.saved)
    (h : sh.call e tr x = some sh') : Drew W d sh sh' f (f.after (.plain x)) (figuresOf f (.plain x)) := by
  have pop : ∀ sh', (match sh.saved with
      | p :: rest => some { sh with pen := p, saved := rest }
      | [] => none) = some sh' → Drew W d sh sh' f { f with space := f.saved.head?.getD f.space, saved := f.saved.tail } [] := by
    intro sh' h
    cases hs : sh.saved with
    | nil => rw [hs] at h; simp at h
    | cons p rest =>
      rw [hs] at h h2
      obtain rfl := Option.some.inj h
      cases hf : f.saved with
      | nil => rw [hf] at h2; simp at h2
      | cons y ys =>
        rw [hf] at h2
        rw [List.forall₂_cons] at h2
        exact ⟨⟨[], by simp, .nil⟩, h2.1, h2.2⟩
  cases x with
  | setColour st r g b =>
    cases st <;> (simp only [Sheet.call, Option.some.injEq] at h; subst h)
    · exact ⟨⟨[], by simp, .nil⟩, h1, h2⟩
    · exact ⟨⟨[], by simp, .nil⟩, by simp [SpaceOK, Effect.after], h2⟩
  | setColourCMYK st c m y k =>
    cases st <;> (simp only [Sheet.call, Option.some.injEq] at h; subst h)
    · exact ⟨⟨[], by simp, .nil⟩, h1, h2⟩
    · exact ⟨⟨[], by simp, .nil⟩, by simp [SpaceOK, Effect.after], h2⟩
  | setGrayStroke v =>
    simp only [Sheet.call, Option.some.injEq] at h; subst h
    exact ⟨⟨[], by simp, .nil⟩, by simp [SpaceOK, Effect.after], h2⟩
  | save =>
    simp only [Sheet.call, Option.some.injEq] at h; subst h
    exact ⟨⟨[], by simp, .nil⟩, h1, .cons h1 h2⟩
  | rotate a x y =>
    simp only [Sheet.call, Option.some.injEq] at h; subst h
    exact ⟨⟨[], by simp, .nil⟩, h1, .cons h1 h2⟩
  | restore => exact pop sh' h
  | rotateReset => exact pop sh' h
  | clipPolygon pts =>
    simp only [Sheet.call] at h
    split at h
    · simp at h
    · obtain rfl := Option.some.inj h
      exact ⟨⟨[], by simp, .nil⟩, h1, h2⟩
  | rectLower x y w hh =>
    simp only [Sheet.call, Option.some.injEq] at h; subst h
    exact .one h1 h2 _ _ ⟨rfl, gs_none _ _ rfl rfl, h1⟩
  | rectUpper x y w hh =>
    simp only [Sheet.call, Option.some.injEq] at h; subst h
    exact .one h1 h2 _ _ ⟨rfl, gs_none _ _ rfl rfl, h1⟩
  | oval a b c d =>
    simp only [Sheet.call, Option.some.injEq] at h; subst h
    exact .one h1 h2 _ _ ⟨rfl, gs_none _ _ rfl rfl, h1⟩
  | curve a b c d st =>
    simp only [Sheet.call, Option.some.injEq] at h; subst h
    exact .one h1 h2 _ _ ⟨rfl, gs_none _ _ rfl rfl, h1⟩
  | template a b c d name =>
    simp only [Sheet.call, Option.some.injEq] at h; subst h
    exact .one h1 h2 _ _ rfl
  | _ =>
    first
    | exact absurd rfl hb
    | (simp only [Sheet.call, Option.some.injEq] at h; subst h; exact ⟨⟨[], by simp, .nil⟩, h1, h2⟩)

/-- The graphics states of a call with a transparency. -/
theorem drawTr_applies {d d' : Doc.Doc} (h : Reachable d) {s : Option (Nat × Nat)} (hs : TrOK d s) (tag : Nat) (tr : Option Doc.Tr)
    (ht : ∀ t ∈ tr.toList, t.sharp) (hok : Doc.step d (.drawTr tag tr) = (d', .ok)) :
    ∃ en, d'.lastEntry = some en ∧ d'.AppliesAlpha en.gs (callSetting s tr) := by
  have S : Doc.Stable0 (fun _ : Doc.Doc => True) := by constructor <;> intros <;> trivial
  obtain ⟨b1, _⟩ := Doc.both_cachedTransparency S ⟨Doc.reachable_base h, trivial⟩ tr
  have hok' : (d.cachedTransparency tr).1.appendPaged { tag := tag, gs := (d.cachedTransparency tr).2.toList } = (d', .ok) := hok
  obtain ⟨h1, h2⟩ := Doc.appendPaged_applies b1.1 { tag := tag, gs := (d.cachedTransparency tr).2.toList }
    (Doc.cachedTransparency_applies (Doc.reachable_base h) hs tr ht) (by rw [hok'])
  rw [hok'] at h1 h2
  exact ⟨_, h1, h2⟩

theorem applies_head {d : Doc.Doc} {gs : List Nat} {s : Option (Nat × Nat)} (h : d.AppliesAlpha gs s) : gs.head?.toList = gs := by
  cases s with
  | none => rw [show gs = [] from h]; rfl
  | some p => obtain ⟨n, h1, _⟩ := h; rw [h1]; rfl

theorem applies_gs {d : Doc.Doc} {gs : List Nat} {u : Used} (h : d.AppliesAlpha gs u.setting) (hm : u.mask = none) : GsOK W d gs u :=
  ⟨gs, [], by simp, h, by rw [hm]; rfl⟩


/-! ### One call of a program -/

/-- What a call draws. -/
def draws (s : St) (c : Call) : List Content.Call :=
  match docOp s.next c with
  | none => []
  | some none => (contentCall s.doc { tag := 0 } c).toList
  | some (some op) => match Doc.step s.doc op with
    | (d, .ok) => (contentCall d (d.lastEntry.getD { tag := 0 }) c).toList
    | _ => []

theorem drawCalls_cons {e : Content.Env} {s s' : St} {c : Call} (rest : List Call) (h : step e s c = some s') :
    drawCalls e s (c :: rest) = draws s c ++ drawCalls e s' rest := by
  simp only [drawCalls, h]
  rfl

theorem calls_append (e : Content.Env) : ∀ (l l' : List Content.Call) (c : Canvas.Canvas),
    c.calls e (l ++ l') = (c.calls e l).bind fun c' => c'.calls e l'
  | [], l', c => rfl
  | k :: l, l', c => by
    simp only [List.cons_append, Canvas.Canvas.calls]
    cases c.call e k with
    | none => rfl
    | some c' => exact calls_append e l l' c'

/-- Nothing is drawn. -/
theorem Inv.keep {s s' : St} {c : Canvas.Canvas} {f : Effect} {n : Nat} (h : Inv s c f n) (op : Doc.Op) (hd : s'.doc = (Doc.step s.doc op).1)
    (ht : ∀ t ∈ op.settings, t.sharp) (htr : (∀ t, op ≠ .setTransparency t) ∧ op ≠ .clearTransparency) : Inv s' c f n where
  reach := hd ▸ h.reach.step op
  tr := by
    have := h.tr.step h.reach op ht
    have e1 : Doc.inEffect f.setting [op] = f.setting := by
      cases op <;> first | rfl | exact absurd rfl (htr.1 _) | exact absurd rfl htr.2
    rw [hd]; rw [e1] at this; exact this
  trans := by
    rw [hd, (Doc.TX.step s.doc op htr.1 htr.2 ht).1]; exact h.trans
  cur := h.cur
  len := h.len
  pen := fun sh hsh => by
    have hg : Grow s.doc s'.doc := by rw [hd]; exact Doc.grow_step (Doc.reachable_base h.reach) op
    exact ⟨(h.pen sh hsh).1.grow hg, (h.pen sh hsh).2.imp fun _ _ a => a.grow hg⟩

theorem err_op {op : Doc.Op} {d d' : Doc.Doc} (h : Doc.step d op = (d', .err)) : (∀ t, op ≠ .setTransparency t) ∧ op ≠ .clearTransparency := by
  constructor
  · rintro t rfl; simp [Doc.step] at h
  · rintro rfl; simp [Doc.step] at h

/-- The picture of an entry. -/
theorem denotes_picture {d : Doc.Doc} {k id : Nat} {m : Doc.ImgInfo} {s r : Option Nat} (h1 : Doc.Denotes d.xobjNames k k)
    (h2 : d.objAt k = some (.image id m s r)) : PictureOK d k id := by
  have hmem : (k, k) ∈ d.xobjNames := by
    have : (k, k) ∈ d.xobjNames.filter fun p => p.1 = k := by rw [h1]; simp
    exact (List.mem_filter.1 this).1
  obtain ⟨i, hi, he⟩ := List.mem_map.1 hmem
  rw [Prod.mk.injEq] at he
  obtain ⟨he, -⟩ := he
  subst he
  rw [Doc.objAt_succ] at h2
  exact ⟨i, m, rfl, hi, Doc.ident_at h2⟩

/-- One call. -/
theorem Inv.step {e : Content.Env} {s s' : St} {call : Call} {c c1 : Canvas.Canvas} {f : Effect} {n : Nat} (h : Inv s c f n)
    (hs : step e s call = some s') (hat : W[s.next - 1]? = some call) (hh : heightBefore W s.next = f.height) (ht : ∀ op, docOp s.next call = some (some op) → ∀ t ∈ op.settings, t.sharp)
    (hc : c.calls e (draws s call) = some c1) :
    Inv s' c1 (if succeeds s call then f.after call else f) (if isPage call then n + 1 else n) ∧
    ∀ k, ∃ new, figs c1 k = figs c k ++ new ∧
      List.Forall₂ (FigOK W s'.doc) new (if n = k ∧ succeeds s call then figuresOf f call else []) := by
  have nothing : ∀ k, ∃ new, figs c k = figs c k ++ new ∧ List.Forall₂ (FigOK W s'.doc) new ([] : List Used) :=
    fun k => ⟨[], by simp, .nil⟩
  have none_of : ∀ (k : Nat) (us : List Used), us = [] → (if n = k ∧ succeeds s call = true then us else []) = [] := by
    rintro k us rfl; simp
  cases step_made hs with
  | pen a1 k a2 a3 a4 a5 =>
    have hsuc : succeeds s call = true := by simp [succeeds, a1]
    simp only [draws, a1, a2, Option.toList, Canvas.Canvas.calls] at hc
    cases call with
    | plain x =>
      simp only [contentCall, Option.some.injEq] at a2; subst a2
      simp only [docOp, Option.map_eq_some_iff] at a1
      obtain ⟨b, hb, hb'⟩ := a1
      have hb1 : plainCall x = some none := by cases b <;> simp_all
      have hx : (∀ h, x ≠ .addPage h) ∧ (∀ n, x ≠ .setPage n) ∧ ∀ n, x ≠ .setTransparency n := by
        cases x <;> simp [plainCall] at hb1 <;> exact ⟨by simp, by simp, by simp⟩
      have hc' : c.call e x = some c1 := by
        simp only [Option.bind_eq_some_iff, Option.some.injEq] at hc
        obtain ⟨_, hc, rfl⟩ := hc
        exact hc
      obtain ⟨q1, q2⟩ := h.drawn (s' := s') (f' := f.after (.plain x)) none (by simpa [Doc.exec] using a3) (by simp)
        (by cases x <;> first | rfl | (simp [plainCall] at hb1; done)) hx hc'
        (fun sh sh' h1 h2 => plain_drew (by rw [hb1]; simp) sh sh' h1 h2)
      rw [if_pos hsuc]
      refine ⟨q1, fun k => ?_⟩
      simpa [hsuc] using q2 k
    | object o => simp only [docOp] at a1; split at a1 <;> simp at a1
    | _ => simp [docOp] at a1
  | err op a1 a2 a3 a5 =>
    have hsuc : succeeds s call = false := by simp [succeeds, a1, a2]
    simp only [draws, a1, a2, Canvas.Canvas.calls, Option.some.injEq] at hc
    subst hc
    have hpg : isPage call = false := by
      cases call <;> first | rfl | skip
      simp only [docOp, Option.some.injEq] at a1; subst a1; simp [Doc.step] at a2
    rw [if_neg (by simp [hsuc]), if_neg (by simp [hpg])]
    refine ⟨h.keep op (by rw [a2]) (ht op a1) (err_op a2), fun k => ?_⟩
    simpa [hsuc] using nothing k
  | quiet op a1 a2 a3 a4 a5 =>
    have hsuc : succeeds s call = true := by simp [succeeds, a1, a2]
    simp only [draws, a1, a2, a3, Option.toList, Canvas.Canvas.calls, Option.some.injEq] at hc
    subst hc
    have hd : s'.doc = (Doc.step s.doc op).1 := by rw [a2]
    have ho : (Doc.step s.doc op).2 = .ok := by rw [a2]
    rw [if_pos hsuc]
    cases call with
    | object o =>
      simp only [docOp] at a1
      split at a1
      · next hob =>
        simp only [Option.some.injEq] at a1; subst a1
        refine ⟨h.keep o hd (ht o (by simp [docOp, hob])) ⟨(object_other hob).1, (object_other hob).2.1⟩, fun k => ?_⟩
        simpa [figuresOf] using nothing k
      · simp at a1
    | setColourSpace name =>
      simp only [docOp, Option.some.injEq] at a1; subst a1
      obtain ⟨en, k, _, _, e1, _, e2, _⟩ := Doc.setColorSpace_entry h.reach s.next name ho
      rw [← hd] at e1
      rw [e1] at a3; simp [contentCall, e2] at a3
    | image img i =>
      simp only [docOp, Option.some.injEq] at a1; subst a1
      obtain ⟨en, k, _, _, _, e1, _, e2, _⟩ := Doc.image_entry h.reach s.next img ho
      rw [← hd] at e1
      rw [e1] at a3; simp [contentCall, e2] at a3
    | imageOpt img i tr mask =>
      simp only [docOp, Option.some.injEq] at a1; subst a1
      obtain ⟨en, k, _, _, _, e1, _, e2, _⟩ := Doc.imageOpt_entry h.reach s.next img tr _ ho
      rw [← hd] at e1
      rw [e1] at a3; simp [contentCall, e2] at a3
    | _ => simp [contentCall] at a3
  | both op a1 a2 x a3 a4 a5 =>
    have hsuc : succeeds s call = true := by simp [succeeds, a1, a2]
    simp only [draws, a1, a2, a3, Option.toList, Canvas.Canvas.calls, Option.bind_eq_some_iff, Option.some.injEq] at hc
    obtain ⟨c2, hc, rfl⟩ := hc
    have hd : s'.doc = (Doc.step s.doc op).1 := by rw [a2]
    have ho : (Doc.step s.doc op).2 = .ok := by rw [a2]
    have hd' : s'.doc = Doc.exec s.doc (some op).toList := by simpa [Doc.exec] using hd
    have hx' : Ext s.doc s'.doc := by rw [hd]; exact Doc.step_ext _ _
    have hr' : Reachable s'.doc := hd ▸ h.reach.step op
    rw [if_pos hsuc]
    have fin : ∀ (f' : Effect) (us : List Used), Inv s' c2 f' n →
        (∀ k, ∃ new, figs c2 k = figs c k ++ new ∧ List.Forall₂ (FigOK W s'.doc) new (if n = k then us else [])) →
        f' = f.after call → us = figuresOf f call → isPage call = false →
        Inv s' c2 (f.after call) (if isPage call then n + 1 else n) ∧
        ∀ k, ∃ new, figs c2 k = figs c k ++ new ∧
          List.Forall₂ (FigOK W s'.doc) new (if n = k ∧ succeeds s call then figuresOf f call else []) := by
      rintro f' us q1 q2 rfl rfl hp
      rw [if_neg (by simp [hp])]
      exact ⟨q1, fun k => by simpa [hsuc] using q2 k⟩
    have other : Other op → isPage call = false → (f.after call).setting = f.setting →
        ((∀ h, x ≠ .addPage h) ∧ (∀ n, x ≠ .setPage n) ∧ ∀ n, x ≠ .setTransparency n) →
        (∀ sh sh' : Sheet, SpaceOK s'.doc sh.pen.stroke f.space → List.Forall₂ (fun (p : Pen) x => SpaceOK s'.doc p.stroke x) sh.saved f.saved →
          sh.call e s.doc.curTr x = some sh' → Drew W s'.doc sh sh' f (f.after call) (figuresOf f call)) →
        Inv s' c2 (f.after call) (if isPage call then n + 1 else n) ∧
        ∀ k, ∃ new, figs c2 k = figs c k ++ new ∧
          List.Forall₂ (FigOK W s'.doc) new (if n = k ∧ succeeds s call then figuresOf f call else []) := by
      intro q1 q2 q3 q4 q5
      obtain ⟨r1, r2⟩ := h.drawn (s' := s') (f' := f.after call) (some op) hd' (by rintro o ⟨rfl⟩; exact ⟨q1, ht op a1⟩) q3 q4 hc q5
      exact fin _ _ r1 r2 rfl rfl q2
    have text : (∃ t, x = .text t) ∨ (∃ r t, x = .cell r t) ∨ (∃ r t o tr, x = .cellWithOption r t o tr) →
        ∀ sh sh' : Sheet, SpaceOK s'.doc sh.pen.stroke f.space → List.Forall₂ (fun (p : Pen) x => SpaceOK s'.doc p.stroke x) sh.saved f.saved →
          sh.call e s.doc.curTr x = some sh' → Drew W s'.doc sh sh' f f [] := by
      intro q sh sh' h1 h2 h3
      rcases q with ⟨t, rfl⟩ | ⟨r, t, rfl⟩ | ⟨r, t, o, tr, rfl⟩ <;>
        (simp only [Sheet.call, Option.some.injEq] at h3; subst h3; exact .same h1 h2)
    cases call with
    | object o => simp [contentCall] at a3
    | plain y =>
      simp only [contentCall, Option.some.injEq] at a3; subst a3
      simp only [docOp, Option.map_eq_some_iff] at a1
      obtain ⟨b, hb, b', hb', rfl⟩ := a1
      have hbn : plainCall y ≠ none := by rw [hb]; simp
      refine other ⟨by simp, by simp, by simp⟩ rfl ?_ ?_ (fun sh sh' h1 h2 => plain_drew hbn sh sh' h1 h2)
      · cases y <;> first | rfl | (next st _ _ _ => cases st <;> rfl) | (next st _ _ _ _ => cases st <;> rfl)
      · cases y <;> simp [plainCall] at hb <;> exact ⟨by simp, by simp, by simp⟩
    | addPage ht' =>
      simp only [contentCall, Option.some.injEq] at a3; subst a3
      simp only [docOp, Option.some.injEq] at a1; subst a1
      simp only [Canvas.Canvas.call, Option.some.injEq] at hc; subst hc
      have hk := h.keep (s' := s') .addPage hd (ht _ rfl) ⟨by simp, by simp⟩
      refine ⟨⟨hk.reach, hk.tr, hk.trans, ?_, ?_, ?_⟩, fun k => ⟨[], ?_, by simp [figuresOf]⟩⟩
      · simp [isPage, h.len]
      · simp [isPage, h.len]
      · intro sh hsh
        have := h.len
        simp [isPage, ← this] at hsh
        subst hsh
        exact ⟨by simp [SpaceOK, Effect.after], .nil⟩
      · unfold figs
        by_cases hk : k < c.sheets.length
        · rw [List.getElem?_append_left hk]; simp
        · rw [List.getElem?_eq_none (l := c.sheets) (i := k) (by omega), List.getElem?_append_right (by omega)]
          cases hz : k - c.sheets.length <;> simp
    | setFont fam st size =>
      simp only [contentCall, Option.some.injEq] at a3; subst a3
      simp only [docOp, Option.some.injEq] at a1; subst a1
      have hk := h.keep (s' := s') (.setFont fam st) hd (ht _ rfl) ⟨by simp, by simp⟩
      obtain ⟨sh, sh', h1, h2, rfl⟩ := on_spec (show c.on (fun sh => sh.call e c.trans (.setFont _ st size)) = some c2 from hc)
      simp only [Sheet.call, Option.some.injEq] at h2; subst h2
      have hset : c.sheets.set c.cur sh = c.sheets := by
        obtain ⟨hlt, rfl⟩ := List.getElem?_eq_some_iff.1 h1
        exact List.set_getElem_self hlt
      refine ⟨⟨hk.reach, hk.tr, hk.trans, hk.cur, by simpa [isPage] using hk.len, ?_⟩, fun k => ⟨[], ?_, by simp [figuresOf]⟩⟩
      · intro sh2 h2; rw [hset] at h2; exact hk.pen sh2 h2
      · simp [figs, hset]
    | setTransparency t =>
      simp only [contentCall, Option.some.injEq] at a3; subst a3
      simp only [docOp, Option.some.injEq] at a1; subst a1
      simp only [Canvas.Canvas.call, Option.some.injEq] at hc; subst hc
      have hg : Grow s.doc s'.doc := by rw [hd]; exact Doc.grow_step (Doc.reachable_base h.reach) _
      have htr := h.tr.step h.reach _ (ht _ rfl)
      refine ⟨⟨hr', by rw [hd]; exact htr, rfl, h.cur, h.len, fun sh hsh => ?_⟩, fun k => ⟨[], by simp [figs], by simp [figuresOf]⟩⟩
      exact ⟨(h.pen sh hsh).1.grow hg, (h.pen sh hsh).2.imp fun _ _ a => a.grow hg⟩
    | clearTransparency =>
      simp only [contentCall, Option.some.injEq] at a3; subst a3
      simp only [docOp, Option.some.injEq] at a1; subst a1
      simp only [Canvas.Canvas.call, Option.some.injEq] at hc; subst hc
      have hg : Grow s.doc s'.doc := by rw [hd]; exact Doc.grow_step (Doc.reachable_base h.reach) _
      have htr := h.tr.step h.reach _ (ht _ rfl)
      refine ⟨⟨hr', by rw [hd]; exact htr, by rw [hd]; rfl, h.cur, h.len, fun sh hsh => ?_⟩, fun k => ⟨[], by simp [figs], by simp [figuresOf]⟩⟩
      exact ⟨(h.pen sh hsh).1.grow hg, (h.pen sh hsh).2.imp fun _ _ a => a.grow hg⟩
    | setColourSpace name =>
      simp only [contentCall, Option.map_eq_some_iff] at a3
      obtain ⟨m, hm, rfl⟩ := a3
      simp only [docOp, Option.some.injEq] at a1; subst a1
      refine other ⟨by simp, by simp, by simp⟩ rfl rfl ⟨by simp, by simp, by simp⟩ ?_
      intro sh sh' h1 h2 h3
      simp only [Sheet.call, Option.some.injEq] at h3; subst h3
      refine ⟨⟨[], by simp, .nil⟩, ?_, h2⟩
      obtain ⟨en, k, j, cc, e1, _, e2, e3, e4, _⟩ := Doc.setColorSpace_entry h.reach s.next name ho
      rw [← hd] at e1 e3
      rw [e1, Option.getD_some, e2, Option.some.injEq] at hm
      subst hm
      have hmem : (k, j) ∈ s'.doc.csNames := by
        have : (k, j) ∈ s'.doc.csNames.filter fun p => p.1 = k := by rw [e3]; simp
        exact (List.mem_filter.1 this).1
      obtain ⟨r, hr, he⟩ := List.mem_map.1 hmem
      rw [Prod.mk.injEq] at he
      obtain ⟨rfl, rfl⟩ := he
      refine ⟨r, hr, ?_, by simp⟩
      have hcs := (Doc.reachable_res hr').csObj r hr
      rw [Doc.objAt_succ] at e4
      have := Doc.prefix_get hx' (Doc.ident_at e4)
      rw [this] at hcs
      simp [Doc.Obj.ident] at hcs
      exact hcs.1.symm
    | text t =>
      simp only [contentCall, Option.some.injEq] at a3; subst a3
      simp only [docOp, Option.some.injEq] at a1; subst a1
      exact other ⟨by simp, by simp, by simp⟩ rfl rfl ⟨by simp, by simp, by simp⟩ (text (.inl ⟨_, rfl⟩))
    | cell r t =>
      simp only [contentCall, Option.some.injEq] at a3; subst a3
      simp only [docOp, Option.some.injEq] at a1; subst a1
      exact other ⟨by simp, by simp, by simp⟩ rfl rfl ⟨by simp, by simp, by simp⟩ (text (.inr (.inl ⟨_, _, rfl⟩)))
    | cellWithOption r t opt tr =>
      simp only [contentCall, Option.some.injEq] at a3; subst a3
      simp only [docOp, Option.some.injEq] at a1; subst a1
      exact other ⟨by simp, by simp, by simp⟩ rfl rfl ⟨by simp, by simp, by simp⟩ (text (.inr (.inr ⟨_, _, _, _, rfl⟩)))
    | line x1 y1 x2 y2 =>
      simp only [contentCall, Option.some.injEq] at a3; subst a3
      simp only [docOp, Option.some.injEq] at a1; subst a1
      refine other ⟨by simp, by simp, by simp⟩ rfl rfl ⟨by simp, by simp, by simp⟩ ?_
      intro sh sh' h1 h2 h3
      simp only [Sheet.call, Option.some.injEq] at h3; subst h3
      exact .one h1 h2 _ _ ⟨rfl, applies_gs (Doc.AppliesAlpha.ext hx' h.tr.cur) rfl, h1⟩
    | polygon pts st =>
      simp only [contentCall, Option.some.injEq] at a3; subst a3
      simp only [docOp, Option.some.injEq] at a1; subst a1
      refine other ⟨by simp, by simp, by simp⟩ rfl rfl ⟨by simp, by simp, by simp⟩ ?_
      intro sh sh' h1 h2 h3
      simp only [Sheet.call] at h3
      split at h3
      · simp at h3
      · obtain rfl := Option.some.inj h3
        exact .one h1 h2 _ _ ⟨rfl, applies_gs (Doc.AppliesAlpha.ext hx' h.tr.cur) rfl, h1⟩
    | rectLowerOpt x y w hh st tr =>
      simp only [contentCall, Option.some.injEq] at a3; subst a3
      simp only [docOp, Option.some.injEq] at a1; subst a1
      refine other ⟨by simp, by simp, by simp⟩ rfl rfl ⟨by simp, by simp, by simp⟩ ?_
      intro sh sh' h1 h2 h3
      simp only [Sheet.call, Option.some.injEq] at h3; subst h3
      refine .one h1 h2 _ _ ⟨rfl, applies_gs ?_ rfl, h1⟩
      obtain ⟨en, e1, e2⟩ := drawTr_applies h.reach h.tr s.next tr (ht _ rfl) a2
      cases tr with
      | none => exact Doc.AppliesAlpha.ext hx' h.tr.cur
      | some t => simp only [ownTr, Option.map_some, Option.getD_some, e1, applies_head e2]; exact e2
    | rectUpperOpt x y w hh st tr =>
      simp only [contentCall, Option.some.injEq] at a3; subst a3
      simp only [docOp, Option.some.injEq] at a1; subst a1
      refine other ⟨by simp, by simp, by simp⟩ rfl rfl ⟨by simp, by simp, by simp⟩ ?_
      intro sh sh' h1 h2 h3
      simp only [Sheet.call, Option.some.injEq] at h3; subst h3
      refine .one h1 h2 _ _ ⟨rfl, applies_gs ?_ rfl, h1⟩
      obtain ⟨en, e1, e2⟩ := drawTr_applies h.reach h.tr s.next tr (ht _ rfl) a2
      cases tr with
      | none => exact Doc.AppliesAlpha.ext hx' h.tr.cur
      | some t => simp only [ownTr, Option.map_some, Option.getD_some, e1, applies_head e2]; exact e2
    | image img i =>
      simp only [contentCall, Option.map_eq_some_iff] at a3
      obtain ⟨m, hm, rfl⟩ := a3
      simp only [docOp, Option.some.injEq] at a1; subst a1
      refine other ⟨by simp, by simp, by simp⟩ rfl rfl ⟨by simp, by simp, by simp⟩ ?_
      intro sh sh' h1 h2 h3
      simp only [Sheet.call, Option.some.injEq] at h3; subst h3
      refine .one h1 h2 _ _ ⟨img.id, rfl, ?_, ?_⟩
      · obtain ⟨en, k, _, _, _, e1, _, e2, e3, e4⟩ := Doc.image_entry h.reach s.next img ho
        rw [← hd] at e1 e3 e4
        rw [e1, Option.getD_some, e2, Option.some.injEq] at hm
        subst hm
        have := denotes_picture e3 e4
        obtain ⟨j, info, rfl, _⟩ := this
        simpa using denotes_picture e3 e4
      · obtain ⟨en, k, e1, _, e2, e3, _⟩ := Doc.image_entry0 (split := false) (Doc.reachable_base h.reach) s.next img [] ho
        have e1 : s'.doc.lastEntry = some en := by rw [hd]; exact e1
        rw [e1]
        simp only [Option.getD_some, e3]
        exact gs_none _ _ rfl rfl
    | imageOpt img i tr mask =>
      simp only [contentCall, Option.map_eq_some_iff] at a3
      obtain ⟨m, hm, rfl⟩ := a3
      simp only [docOp, Option.some.injEq] at a1; subst a1
      refine other ⟨by simp, by simp, by simp⟩ rfl rfl ⟨by simp, by simp, by simp⟩ ?_
      intro sh sh' h1 h2 h3
      simp only [Sheet.call, Option.some.injEq] at h3; subst h3
      refine .one h1 h2 _ _ ⟨img.id, rfl, ?_, ?_⟩
      · obtain ⟨en, k, _, _, _, e1, _, e2, e3, e4⟩ := Doc.imageOpt_entry h.reach s.next img tr _ ho
        rw [← hd] at e1 e3 e4
        rw [e1, Option.getD_some, e2, Option.some.injEq] at hm
        subst hm
        have := denotes_picture e3 e4
        obtain ⟨j, info, rfl, _⟩ := this
        simpa using denotes_picture e3 e4
      · obtain ⟨en, g1, g2, e1, _, e3, e4, e5⟩ := Doc.imageOpt_applies h.reach h.tr s.next img tr _ (ht _ rfl) ho
        rw [← hd] at e1 e4 e5
        rw [e1]
        refine ⟨g1, g2, e3, e4, ?_⟩
        cases mask with
        | none => exact e5
        | some mm =>
          obtain ⟨n', gs', r1, r2, r3⟩ := e5
          refine ⟨n', _, gs', r1, r2, r3, fun x => ?_⟩
          simp only [maskItem, hat, Option.getD_some, Nat.add_sub_cancel, hh]

theorem heightBefore_next (pre rest : List Call) (call : Call) : heightBefore (pre ++ call :: rest) (pre.length + 2) =
    match call with
    | .addPage h => h
    | _ => heightBefore (pre ++ call :: rest) (pre.length + 1) := by
  have e1 : (pre ++ call :: rest).take (pre.length + 2 - 1) = pre ++ [call] := by
    rw [show pre.length + 2 - 1 = pre.length + 1 by omega, List.take_append]
    simp
  have e2 : (pre ++ call :: rest).take (pre.length + 1 - 1) = pre := by simp
  simp only [heightBefore, e1, e2, List.foldl_append, List.foldl_cons, List.foldl_nil]
  cases call <;> rfl

theorem height_after (s : St) (call : Call) (f : Effect) : (if succeeds s call then f.after call else f).height =
    match call with
    | .addPage h => h
    | _ => f.height := by
  cases call with
  | addPage h => simp [succeeds, docOp, Doc.step, Effect.after]
  | plain x =>
    split
    · cases x with
      | setColour st _ _ _ => cases st <;> rfl
      | setColourCMYK st _ _ _ _ => cases st <;> rfl
      | _ => rfl
    · rfl
  | _ => split <;> rfl

/-- All calls of a program. -/
theorem calls_used {e : Content.Env} (k : Nat) : ∀ (prog pre : List Call) (s s' : St) (c c' : Canvas.Canvas) (f : Effect) (n : Nat),
    W = pre ++ prog → s.next = pre.length + 1 → heightBefore W s.next = f.height → Inv s c f n → steps e s prog = some s' → c.calls e (drawCalls e s prog) = some c' →
    (∀ op ∈ docOps s.next prog, ∀ t ∈ op.settings, t.sharp) →
    c'.sheets.length = n + 1 + prog.countP isPage ∧
    ∃ new, figs c' k = figs c k ++ new ∧ List.Forall₂ (FigOK W s'.doc) new (used e k f n s prog)
  | [], pre, s, s', c, c', f, n, _, _, _, h, hs, hc, _ => by
    obtain rfl : s = s' := by simpa [steps] using hs
    obtain rfl : c = c' := by simpa [drawCalls, Canvas.Canvas.calls] using hc
    exact ⟨by simp [h.len], [], by simp, .nil⟩
  | call :: prog, pre, s, s', c, c', f, n, hw, hnx, hh, h, hs, hc, ht => by
    obtain ⟨s1, h1, h2⟩ := steps_cons hs
    rw [drawCalls_cons prog h1, calls_append, Option.bind_eq_some_iff] at hc
    obtain ⟨c1, hc1, hc2⟩ := hc
    have hn : s1.next = s.next + 1 := by cases step_made h1 <;> assumption
    simp only [docOps, List.mem_append] at ht
    obtain ⟨q1, q2⟩ := h.step (W := W) h1 (by rw [hw, hnx]; simp) hh (fun op ho t hm => ht op (.inl (by simp [ho])) t hm) hc1
    obtain ⟨r1, new', r2, r3⟩ := calls_used k prog (pre ++ [call]) s1 s' c1 c' _ _ (by rw [hw]; simp) (by rw [hn, hnx]; simp)
      (by rw [hn, hnx, hw, heightBefore_next, height_after, ← hh, hw, hnx]) q1 h2 hc2 (fun op ho => ht op (.inr (by rw [← hn]; exact ho)))
    obtain ⟨new, q3, q4⟩ := q2 k
    have hdoc := (steps_doc prog s1 s' h2).1
    have hg : Grow s1.doc s'.doc := by rw [hdoc]; exact Doc.grow_exec (Doc.reachable_base q1.reach) _
    have hx : Ext s1.doc s'.doc := by rw [hdoc]; exact Doc.exec_ext _ _
    refine ⟨?_, new ++ new', by rw [r2, q3, List.append_assoc], ?_⟩
    · rw [r1, List.countP_cons]
      cases isPage call <;> simp <;> omega
    · simp only [used, h1]
      exact List.rel_append (q4.imp fun _ _ a => a.grow hg hx) r3

end Verif.Program
