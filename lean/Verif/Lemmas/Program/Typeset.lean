import Verif.Lemmas.Content.Fonts
import Verif.Lemmas.Doc.OnlyFonts
import Verif.Lemmas.Doc.Parts
import Verif.Lemmas.Program.Text
import Verif.Model.Typeset
import Verif.Props.CharMap
/- Drawing with fonts whose maps grow is drawing with the fonts of the end. -/
set_option maxRecDepth 10000
namespace Verif.Typeset
open Doc (NoUL Base Reachable Grow)
open Content (FontLike Known)
open Props (CharHistory IsScalar)

/-! ### Fonts grow -/

/-- The fonts are still there and have at least the characters they had. -/
def FontsGrow (a b : Nat → Option Loaded) : Prop :=
  ∀ i l, a i = some l → ∃ m, b i = some { l with map := m } ∧ ∀ k g, l.map.val k = some g → m.val k = some g

theorem FontsGrow.refl (a : Nat → Option Loaded) : FontsGrow a a := fun _ l h => ⟨l.map, h, fun _ _ h => h⟩

theorem FontsGrow.trans {a b c : Nat → Option Loaded} (h : FontsGrow a b) (h' : FontsGrow b c) : FontsGrow a c := by
  intro i l hi
  obtain ⟨m, h1, h2⟩ := h i l hi
  obtain ⟨m', h3, h4⟩ := h' i _ h1
  exact ⟨m', h3, fun k g hk => h4 k g (h2 k g hk)⟩

theorem like_map (l : Loaded) (m : TTF.CharMap) (h : ∀ k g, l.map.val k = some g → m.val k = some g) :
    FontLike l.font ({ l with map := m } : Loaded).font := ⟨m, rfl, h⟩

theorem find_count {rel : List Doc.RelFont} (hn : (rel.map (·.count)).Nodup) {r : Doc.RelFont} (hr : r ∈ rel) :
    rel.find? (fun x => x.count + 1 = r.count + 1) = some r := by
  induction rel with
  | nil => simp at hr
  | cons a rel ih =>
    rw [List.map_cons, List.nodup_cons] at hn
    rw [List.find?_cons]
    rcases List.mem_cons.1 hr with rfl | hr'
    · simp
    · have : a.count ≠ r.count := fun e => hn.1 (e ▸ List.mem_map.2 ⟨r, hr', rfl⟩)
      simp only [show (decide (a.count + 1 = r.count + 1)) = false by simpa using this]
      exact ih hn.2 hr'

theorem fontNo_mem (base : Nat → Content.Font) {rel : List Doc.RelFont} (hn : (rel.map (·.count)).Nodup) {r : Doc.RelFont} (hr : r ∈ rel)
    {fonts : Nat → Option Loaded} {l : Loaded} (hl : fonts r.index = some l) : fontNo base rel fonts (r.count + 1) = l.font := by
  unfold fontNo
  rw [find_count hn hr]
  simp only [hl]

theorem counts_nodup {d : Doc.Doc} (h : Reachable d) : (d.relFonts.map (·.count)).Nodup := by
  rw [(Doc.reachable_res h).fontCount]; exact List.nodup_range

/-- An environment in which the fonts of the state have at least the characters they have. -/
structure Covers (base : Content.Env) (s : St) (e : Content.Env) : Prop where
  cfg : e.cfg = base.cfg
  fonts : ∀ r ∈ s.prog.doc.relFonts, ∀ l, s.fonts r.index = some l → FontLike l.font (e.fonts (r.count + 1))

theorem Covers.self (base : Content.Env) {s : St} (h : Reachable s.prog.doc) : Covers base s (s.env base) :=
  ⟨rfl, fun r hr l hl => by rw [show (s.env base).fonts (r.count + 1) = l.font from fontNo_mem _ (counts_nodup h) hr hl]; exact FontLike.refl _⟩

theorem Covers.back {base : Content.Env} {s s' : St} {e : Content.Env} (h : Covers base s' e) (hg : Grow s.prog.doc s'.prog.doc)
    (hf : FontsGrow s.fonts s'.fonts) : Covers base s e :=
  ⟨h.cfg, fun r hr l hl => by
    obtain ⟨m, h1, h2⟩ := hf _ l hl
    exact (like_map l m h2).trans (h.fonts r (hg.fonts.subset hr) _ h1)⟩

/-! ### Invariant -/

structure Good (l : Loaded) : Prop where
  history : CharHistory (l.face.source l.info) l.map
  load : TTF.load l.face.file l.face.useKerning = .ok l.info
  subst : ∀ r, IsScalar (l.face.subst r)

structure Inv (base : Content.Env) (s : St) : Prop where
  res : Program.Res s.prog
  has : ∀ (i : Nat) f st c cid u, s.prog.doc.idents[i]? = some (.font f st c cid u) → ∃ l, s.fonts i = some l
  bound : ∀ i l, s.fonts i = some l → i < s.prog.doc.objs.length
  good : ∀ i l, s.fonts i = some l → Good l
  known : NoUL s.prog.doc → ∀ p ∈ s.prog.content.pages, ∀ i ∈ p, Known (s.env base) i

theorem Inv.loaded {base : Content.Env} {s : St} (h : Inv base s) {r : Doc.RelFont} (hr : r ∈ s.prog.doc.relFonts) :
    ∃ l, s.fonts r.index = some l := by
  obtain ⟨st, c, u, h1, -⟩ := (Doc.reachable_res h.res.reach).fontObj r hr
  exact h.has _ _ _ _ _ _ h1

theorem inv_start (base : Content.Env) (prot : Bool) (ml mt : ℚ) : Inv base (start prot ml mt) where
  res := Program.res_start prot ml mt
  has := by
    intro i f st c cid u h
    have := List.mem_of_getElem? h
    cases prot <;> simp [start, Program.start, Doc.start, Doc.Doc.idents, Doc.Obj.ident] at this
  bound := by intro i l h; simp [start] at h
  good := by intro i l h; simp [start] at h
  known := by simp [start, Program.start, Content.start]

theorem Known.cover {base : Content.Env} {s : St} {e : Content.Env} (hi : Inv base s) (hc : Covers base s e) (hu : NoUL s.prog.doc)
    {i : Content.Item} (hk : Known (s.env base) i) (hn : Program.ItemNamed s.prog.doc i) : Known e i := by
  intro t ht r hr
  subst ht
  obtain ⟨x, hx, hf⟩ := hn.1 hu
  obtain ⟨l, hl⟩ := hi.loaded hx
  have h1 := hk t rfl r hr
  rw [hf, show (s.env base).fonts (x.count + 1) = l.font from fontNo_mem _ (counts_nodup hi.res.reach) hx hl] at h1
  rw [hf]
  exact (hc.fonts x hx l hl).isSome h1

/-! ### One call -/

/-- What a caller may give: text comes from Go strings, and substitutes are characters. -/
def Call.Ok : Call → Prop
  | .addFont _ _ face => ∀ r, IsScalar (face.subst r)
  | .text t | .cell _ t | .cellWithOption _ t _ _ | .measure t => ∀ r ∈ t, IsScalar r
  | .other _ => True

theorem addChars_cases {s : St} {t out : List Nat} {fonts : Nat → Option Loaded} (h : s.addChars t = some (fonts, out)) :
    ∃ i c l, s.prog.doc.curFont = some (i, c) ∧ s.fonts i = some l ∧ (TTF.addChars (l.face.source l.info) l.map t).2 = .ok out ∧
      fonts = Function.update s.fonts i (some { l with map := (TTF.addChars (l.face.source l.info) l.map t).1 }) := by
  unfold St.addChars at h
  split at h
  · exact absurd h (by simp)
  · next i c hc =>
    split at h
    · exact absurd h (by simp)
    · next l hl =>
      split at h
      · next m o ho =>
        simp only [Option.some.injEq, Prod.mk.injEq] at h
        obtain ⟨rfl, rfl⟩ := h
        exact ⟨i, c, l, hc, hl, by rw [ho], by rw [ho]⟩
      · exact absurd h (by simp)

/-- What AddChars does to the state. -/
structure Added (s : St) (fonts : Nat → Option Loaded) (out : List Nat) : Prop where
  grow : FontsGrow s.fonts fonts
  keys : ∀ i l', fonts i = some l' → ∃ l, s.fonts i = some l
  good : ∀ i l, fonts i = some l → Good l
  chars : ∃ i c l, s.prog.doc.curFont = some (i, c) ∧ fonts i = some l ∧ ∀ r ∈ out, (l.map.val r).isSome

theorem addChars_added {base : Content.Env} {s : St} (hi : Inv base s) {t out : List Nat} {fonts : Nat → Option Loaded}
    (h : s.addChars t = some (fonts, out)) (ht : ∀ r ∈ t, IsScalar r) : Added s fonts out := by
  obtain ⟨i, c, l, hc, hl, ho, rfl⟩ := addChars_cases h
  have hg := hi.good i l hl
  have hst := fun k g hk => Props.char_glyph_stable hg.history t (k := k) (g := g) hk
  refine ⟨?_, ?_, ?_, i, c, _, hc, Function.update_self .., ?_⟩
  · intro j l' hj
    by_cases hji : j = i
    · subst hji
      rw [hl, Option.some.injEq] at hj
      subst hj
      exact ⟨_, Function.update_self .., hst⟩
    · exact ⟨l'.map, by rw [Function.update_of_ne hji]; exact hj, fun _ _ h => h⟩
  · intro j l' hj
    by_cases hji : j = i
    · exact ⟨l, hji ▸ hl⟩
    · rw [Function.update_of_ne hji] at hj; exact ⟨l', hj⟩
  · intro j l' hj
    by_cases hji : j = i
    · subst hji
      rw [Function.update_self, Option.some.injEq] at hj
      subst hj
      exact ⟨.add t hg.history, hg.load, hg.subst⟩
    · rw [Function.update_of_ne hji] at hj; exact hi.good j l' hj
  · obtain ⟨h1, h2⟩ := Props.drawn_chars_in_map hg.history ho ht (by
      intro f hf r
      simp only [Face.source, Option.some.injEq] at hf
      subst hf
      exact hg.subst r)
    intro r hr
    obtain ⟨j, hj, rfl⟩ := List.getElem_of_mem hr
    have hjt : j < t.length := by omega
    obtain ⟨r', g, a, b, -⟩ := h2 j t[j] (List.getElem?_eq_getElem hjt)
    rw [List.getElem?_eq_getElem hj, Option.some.injEq] at a
    rw [a]
    show ((TTF.addChars (l.face.source l.info) l.map t).1.val r').isSome
    rw [b]; rfl

theorem program_step_like {e e' : Content.Env} {s : Program.St} {c : Program.Call}
    (h : ∀ d en k, (∃ o, Program.docOp s.next c = some o) → Program.contentCall d en c = some k → Content.step e' s.content k = Content.step e s.content k) :
    Program.step e' s c = Program.step e s c := by
  unfold Program.step
  cases hd : Program.docOp s.next c with
  | none => rfl
  | some o =>
    cases o with
    | none =>
      simp only
      cases hk : Program.contentCall s.doc { tag := 0 } c with
      | none => rfl
      | some k => simp only [Option.bind_some]; rw [h _ _ k ⟨_, hd⟩ hk]
    | some op =>
      simp only
      generalize Doc.step s.doc op = r
      obtain ⟨d, o⟩ := r
      cases o with
      | panic => rfl
      | err => rfl
      | ok =>
        simp only
        cases hk : Program.contentCall d (d.lastEntry.getD { tag := 0 }) c with
        | none => rfl
        | some k => simp only; rw [h _ _ k ⟨_, hd⟩ hk]

theorem isText_call {n : Nat} {c : Program.Call} {o : Option Doc.Op} (h : Program.docOp n c = some o) {d : Doc.Doc} {en : Doc.Entry}
    {k : Content.Call} (hk : Program.contentCall d en c = some k) (ht : Content.isText k = true) : (∃ t, c = .text t) ∨ (∃ r t, c = .cell r t) ∨
      ∃ r t op tr, c = .cellWithOption r t op tr := by
  cases c with
  | object o => simp [Program.contentCall] at hk
  | plain x =>
    simp only [Program.docOp, Option.map_eq_some_iff] at h
    obtain ⟨b, hb, rfl⟩ := h
    simp only [Program.contentCall, Option.some.injEq] at hk
    subst hk
    cases x <;> first | (simp [Content.isText] at ht; done) | (simp [Program.plainCall] at hb; done)
  | setColourSpace nm => simp only [Program.contentCall, Option.map_eq_some_iff] at hk; obtain ⟨_, _, rfl⟩ := hk; simp [Content.isText] at ht
  | image a b => simp only [Program.contentCall, Option.map_eq_some_iff] at hk; obtain ⟨_, _, rfl⟩ := hk; simp [Content.isText] at ht
  | imageOpt a b c d => simp only [Program.contentCall, Option.map_eq_some_iff] at hk; obtain ⟨_, _, rfl⟩ := hk; simp [Content.isText] at ht
  | text t => exact Or.inl ⟨t, rfl⟩
  | cell r t => exact Or.inr (Or.inl ⟨r, t, rfl⟩)
  | cellWithOption r t op tr => exact Or.inr (Or.inr ⟨r, t, op, tr, rfl⟩)
  | _ => simp only [Program.contentCall, Option.some.injEq] at hk; subst hk; simp [Content.isText] at ht

/-- The characters a call writes are in the map of the current font. -/
def CharsIn (s : St) (fonts : Nat → Option Loaded) (k : Program.Call) : Prop :=
  ((∃ t, k = .text t) ∨ (∃ r t, k = .cell r t) ∨ ∃ r t op tr, k = .cellWithOption r t op tr) →
    ∃ i c l, s.prog.doc.curFont = some (i, c) ∧ fonts i = some l ∧ ∀ r ∈ Program.written k, (l.map.val r).isSome

theorem other_chars {s : St} {fonts : Nat → Option Loaded} {k : Program.Call} (h : isOther k = true) : CharsIn s fonts k := by
  rintro (⟨t, rfl⟩ | ⟨r, t, rfl⟩ | ⟨r, t, op, tr, rfl⟩) <;> simp [isOther] at h

theorem isOther_font {n : Nat} {k : Program.Call} {op : Doc.Op} (h : isOther k = true) (hd : Program.docOp n k = some (some op)) :
    ∀ f st b, op ≠ .addFont f st b := by
  rintro f st b rfl
  cases k with
  | object o =>
    simp only [Program.docOp] at hd
    split at hd
    · simp only [Option.some.injEq] at hd; subst hd; simp [isOther] at h
    · simp at hd
  | plain x =>
    simp only [Program.docOp, Option.map_eq_some_iff] at hd
    obtain ⟨b, _, b', _, hd⟩ := hd
    simp at hd
  | _ => simp [Program.docOp] at hd

/-- No font is added: the font objects are the old ones. -/
theorem fonts_kept {d d' : Doc.Doc} (hr : Reachable d) (hr' : Reachable d') (hnf : Doc.NF (fun _ _ => True) d d') {i : Nat} {f st c cid u : Nat}
    (h : d'.idents[i]? = some (.font f st c cid u)) : d.idents[i]? = some (.font f st c cid u) := by
  have hm := hnf _ (List.mem_of_getElem? h) trivial
  obtain ⟨j, hj, hjo⟩ := List.getElem_of_mem hm
  have hjo : d.idents[j]? = some (.font f st c cid u) := by rw [List.getElem?_eq_getElem hj, hjo]
  obtain ⟨a, a1, -, -, -, -, f1, s1, c1, a2⟩ := Doc.reachable_parts hr j _ hjo rfl
  obtain ⟨b, b1, -, -, -, -, f2, s2, c2, b2⟩ := Doc.reachable_parts hr' i _ h rfl
  simp only [Doc.place] at a1 b1
  rw [← a1, hjo, Option.some.injEq, Doc.Obj.font.injEq] at a2
  rw [← b1, h, Option.some.injEq, Doc.Obj.font.injEq] at b2
  have : i = j := by omega
  rw [this]; exact hjo

theorem step_grow {e : Content.Env} {s s' : Program.St} {c : Program.Call} (hr : Reachable s.doc) (h : Program.step e s c = some s') :
    Grow s.doc s'.doc ∧ Doc.Ext s.doc s'.doc := by
  have hd := (Program.steps_doc (e := e) [c] s s' (by simp [Program.steps, h])).1
  rw [hd]
  exact ⟨Doc.grow_exec (Doc.reachable_base hr) _, Doc.exec_ext _ _⟩

/-- What a call that draws does, once its characters are in the font. -/
theorem draw_sim {base : Content.Env} {s : St} (hi : Inv base s) {fonts : Nat → Option Loaded} {k : Program.Call} {p : Program.St}
    (hgrow : FontsGrow s.fonts fonts) (hp : Program.step (St.env base { s with fonts := fonts }) s.prog k = some p) (hchars : CharsIn s fonts k)
    (hhas : ∀ (i : Nat) f st c cid u, p.doc.idents[i]? = some (.font f st c cid u) → ∃ l, fonts i = some l)
    (hbound : ∀ i l, fonts i = some l → i < p.doc.objs.length) (hgood : ∀ i l, fonts i = some l → Good l) :
    Inv base ⟨p, fonts⟩ ∧ (NoUL p.doc → ∀ e', Covers base ⟨p, fonts⟩ e' → Program.step e' s.prog k = some p) := by
  have hreach := hi.res.reach
  obtain ⟨hg, hx⟩ := step_grow hreach hp
  have hres := hi.res.step hp
  have hmid : Covers base s (St.env base { s with fonts := fonts }) :=
    (Covers.self base (s := { s with fonts := fonts }) hreach).back (Grow.refl _) hgrow
  have cur : NoUL p.doc → ((∃ t, k = .text t) ∨ (∃ r t, k = .cell r t) ∨ ∃ r t op tr, k = .cellWithOption r t op tr) →
      ∃ x ∈ s.prog.doc.relFonts, ∃ l, fonts x.index = some l ∧ s.prog.content.cur.font = x.count ∧
        (St.env base { s with fonts := fonts }).fonts (s.prog.content.cur.font + 1) = l.font ∧ ∀ r ∈ Program.written k, (l.map.val r).isSome := by
    intro hu ht
    obtain ⟨i, c, l, hc, hl, hch⟩ := hchars ht
    obtain ⟨x, x1, x2, x3⟩ := (Doc.reachable_names hreach).cur (hu.ext hx) i c hc
    have hf := hi.res.font i c hc
    refine ⟨x, x1, l, by rw [x2]; exact hl, by rw [hf, x3], ?_, hch⟩
    rw [hf, ← x3]
    exact fontNo_mem _ (counts_nodup hreach) x1 (by rw [x2]; exact hl)
  have kn : NoUL p.doc → ∀ e', Covers base s e' → ∀ q ∈ s.prog.content.pages, ∀ i ∈ q, Known e' i := fun hu e' he q hq i hiq =>
    Known.cover hi he (hu.ext hx) (hi.known (hu.ext hx) q hq i hiq) (hi.res.items q hq i hiq)
  have getpage : ∀ (P : Content.Item → Prop), (∀ q ∈ s.prog.content.pages, ∀ i ∈ q, P i) →
      ∀ i ∈ s.prog.content.pages.getD s.prog.content.page [], P i := by
    intro P hP i hii
    rw [List.getD_eq_getElem?_getD] at hii
    cases hxx : s.prog.content.pages[s.prog.content.page]? with
    | none => simp [hxx] at hii
    | some q => rw [hxx] at hii; exact hP q (List.mem_of_getElem? hxx) i hii
  have covers : ∀ e', Covers base ⟨p, fonts⟩ e' → Covers base s e' := fun e' he => he.back hg hgrow
  have pen : NoUL p.doc → ∀ e', Covers base ⟨p, fonts⟩ e' → ∀ d en k', (∃ o, Program.docOp s.prog.next k = some o) →
      Program.contentCall d en k = some k' →
      Content.step e' s.prog.content k' = Content.step (St.env base { s with fonts := fonts }) s.prog.content k' := by
    intro hu e' he d en k' ⟨o, ho⟩ hk'
    refine Content.step_like (by rw [he.cfg]; rfl) ?_ (getpage _ (kn hu _ hmid)) ?_
    · intro ht
      obtain ⟨x, x1, l, hl, hf, hfn, -⟩ := cur hu (isText_call ho hk' ht)
      rw [hfn, hf]
      exact he.fonts x (hg.fonts.subset x1) l hl
    · rw [Program.written_call ho hk']
      intro r hr
      have ht : (∃ t, k = .text t) ∨ (∃ r t, k = .cell r t) ∨ ∃ r t op tr, k = .cellWithOption r t op tr := by
        cases k <;> simp [Program.written] at hr ⊢
      obtain ⟨x, x1, l, hl, hf, hfn, hch⟩ := cur hu ht
      rw [hfn]
      exact hch r hr
  have sim : NoUL p.doc → ∀ e', Covers base ⟨p, fonts⟩ e' → Program.step e' s.prog k = some p := by
    intro hu e' he
    rw [program_step_like (pen hu e' he)]
    exact hp
  refine ⟨⟨hres, hhas, hbound, hgood, fun hu => ?_⟩, sim⟩
  have hself : Covers base ⟨p, fonts⟩ (St.env base ⟨p, fonts⟩) := Covers.self base hres.reach
  have hstep := sim hu _ hself
  have hk := kn hu _ (covers _ hself)
  have texts : ∀ r ∈ Program.written k, (((St.env base ⟨p, fonts⟩).fonts (s.prog.content.cur.font + 1)).run.map.val r).isSome := by
    intro r hr
    have ht : (∃ t, k = .text t) ∨ (∃ r t, k = .cell r t) ∨ ∃ r t op tr, k = .cellWithOption r t op tr := by
      cases k <;> simp [Program.written] at hr ⊢
    obtain ⟨x, x1, l, hl, hf, hfn, hch⟩ := cur hu ht
    rw [hf]
    exact (hself.fonts x (hg.fonts.subset x1) l hl).isSome (hch r hr)
  cases Program.step_made hstep with
  | pen a1 x a2 a3 a4 a5 => exact Content.step_known a4 hk (by rw [Program.written_call a1 a2]; exact texts)
  | err op a1 a2 a3 a5 => show ∀ q ∈ p.content.pages, _; rw [a3]; exact hk
  | quiet op a1 a2 a3 a4 a5 => show ∀ q ∈ p.content.pages, _; rw [a4]; exact hk
  | both op a1 a2 x a3 a4 a5 => exact Content.step_known a4 hk (by rw [Program.written_call a1 a3]; exact texts)

theorem step_nf {e : Content.Env} {s p : Program.St} {k : Program.Call} (hp : Program.step e s k = some p)
    (hnf : ∀ op, Program.docOp s.next k = some (some op) → ∀ f st b, op ≠ .addFont f st b) : Doc.NF (fun _ _ => True) s.doc p.doc := by
  have one : ∀ op o, Program.docOp s.next k = some (some op) → Doc.step s.doc op = (p.doc, o) → Doc.NF (fun _ _ => True) s.doc p.doc := by
    intro op o h1 h2
    have := Doc.nf_step (M := fun _ _ => True) s.doc op (hnf op h1) (fun _ _ _ => trivial)
    rwa [h2] at this
  cases Program.step_made hp with
  | pen a1 x a2 a3 a4 a5 => rw [a3]; exact Doc.NF.refl _
  | err op a1 a2 => exact one op _ a1 a2
  | quiet op a1 a2 => exact one op _ a1 a2
  | both op a1 a2 => exact one op _ a1 a2

/-- Calls other than AddTTFFont. -/
theorem plain_sim {base : Content.Env} {s : St} (hi : Inv base s) {fonts : Nat → Option Loaded} {k : Program.Call} {p : Program.St}
    (hgrow : FontsGrow s.fonts fonts) (hp : Program.step (St.env base { s with fonts := fonts }) s.prog k = some p) (hchars : CharsIn s fonts k)
    (hkeys : ∀ i l, fonts i = some l → ∃ l0, s.fonts i = some l0)
    (hnf : ∀ op, Program.docOp s.prog.next k = some (some op) → ∀ f st b, op ≠ .addFont f st b) (hgood : ∀ i l, fonts i = some l → Good l) :
    Inv base ⟨p, fonts⟩ ∧ (NoUL p.doc → ∀ e', Covers base ⟨p, fonts⟩ e' → Program.step e' s.prog k = some p) := by
  have hreach := hi.res.reach
  obtain ⟨hg, hx⟩ := step_grow hreach hp
  have hres := hi.res.step hp
  have hNF := step_nf hp hnf
  refine draw_sim hi hgrow hp hchars ?_ ?_ hgood
  · intro i f st c cid u h
    obtain ⟨l, hl⟩ := hi.has i _ _ _ _ _ (fonts_kept hreach hres.reach hNF h)
    obtain ⟨m, hm, -⟩ := hgrow i l hl
    exact ⟨_, hm⟩
  · intro i l h
    obtain ⟨l0, h0⟩ := hkeys i l h
    have := hi.bound i l0 h0
    have hl := hx.length_le
    rw [Doc.idents_len, Doc.idents_len] at hl
    omega

/-- AddTTFFont. -/
theorem font_sim {base : Content.Env} {s : St} (hi : Inv base s) {f st : Nat} {l : Loaded} {p : Program.St} {fonts : Nat → Option Loaded} (hgood : Good l)
    (hfonts : fonts = Function.update s.fonts (s.prog.doc.objs.length + 4) (some l))
    (hp : Program.step (St.env base { s with fonts := fonts }) s.prog (.object (.addFont f st true)) = some p) :
    FontsGrow s.fonts fonts ∧ Inv base ⟨p, fonts⟩ ∧
      (NoUL p.doc → ∀ e', Covers base ⟨p, fonts⟩ e' → Program.step e' s.prog (.object (.addFont f st true)) = some p) := by
  have hu : ∀ i, i ≠ s.prog.doc.objs.length + 4 → fonts i = s.fonts i := fun i h => by rw [hfonts]; exact Function.update_of_ne h ..
  have hs : fonts (s.prog.doc.objs.length + 4) = some l := by rw [hfonts]; exact Function.update_self ..
  clear hfonts
  have hreach := hi.res.reach
  have hne : ∀ i l', s.fonts i = some l' → i ≠ s.prog.doc.objs.length + 4 := fun i l' h => by have := hi.bound i l' h; omega
  have hgrow : FontsGrow s.fonts fonts := fun i l' h => ⟨l'.map, by rw [hu i (hne i l' h)]; exact h, fun _ _ h => h⟩
  have hdoc : p.doc = s.prog.doc.addFont f st := by
    simp only [Program.step, Program.docOp, Program.objectOp, Doc.step, Program.contentCall, if_true, Option.some.injEq] at hp
    rw [← hp]
  obtain ⟨cnt, hid, -⟩ := Doc.addFont_cases s.prog.doc (Doc.reachable_base hreach) f st
  rw [← hdoc] at hid
  have hlen : p.doc.objs.length = s.prog.doc.objs.length + 5 := by
    rw [← Doc.idents_len, hid, List.length_append, Doc.idents_len]; rfl
  refine ⟨hgrow, draw_sim hi hgrow hp ?_ ?_ ?_ ?_⟩
  · rintro (⟨t, ht⟩ | ⟨r, t, ht⟩ | ⟨r, t, op, tr, ht⟩) <;> simp at ht
  · intro i f' st' c cid u h
    rw [hid] at h
    rcases Nat.lt_or_ge i s.prog.doc.idents.length with hlt | hge
    · rw [List.getElem?_append_left hlt] at h
      obtain ⟨l0, h0⟩ := hi.has i _ _ _ _ _ h
      exact ⟨l0, by rw [hu i (hne i l0 h0)]; exact h0⟩
    · rw [List.getElem?_append_right hge] at h
      rw [Doc.idents_len] at hge h
      by_cases h4 : i = s.prog.doc.objs.length + 4
      · exact ⟨l, by rw [h4]; exact hs⟩
      · exfalso
        generalize hk : i - s.prog.doc.objs.length = k at h
        match k, h with
        | 0, h => simp at h
        | 1, h => simp at h
        | 2, h => simp at h
        | 3, h => simp at h
        | 4, h => omega
        | n + 5, h => simp at h
  · intro i l' h
    by_cases h4 : i = s.prog.doc.objs.length + 4
    · omega
    · rw [hu i h4] at h
      have := hi.bound i l' h
      omega
  · intro i l' h
    by_cases h4 : i = s.prog.doc.objs.length + 4
    · rw [h4, hs, Option.some.injEq] at h
      rw [← h]; exact hgood
    · rw [hu i h4] at h
      exact hi.good i l' h

/-- One call. -/
theorem step_sim {base : Content.Env} {s s' : St} {c : Call} {k : Option Program.Call} (hi : Inv base s) (hok : c.Ok)
    (h : step base s c = some (s', k)) : Inv base s' ∧ Grow s.prog.doc s'.prog.doc ∧ Doc.Ext s.prog.doc s'.prog.doc ∧ FontsGrow s.fonts s'.fonts ∧
      (NoUL s'.prog.doc → ∀ e', Covers base s' e' → Program.steps e' s.prog k.toList = some s'.prog) := by
  have one : ∀ {e' : Content.Env} {a b : Program.St} {k : Program.Call}, Program.step e' a k = some b → Program.steps e' a (some k).toList = some b := by
    intro e' a b k h; simp [Program.steps, h]
  unfold step at h
  split at h
  · exact absurd h (by simp)
  · next fonts hp =>
    -- nothing is drawn
    simp only [Option.some.injEq, Prod.mk.injEq] at h
    obtain ⟨rfl, rfl⟩ := h
    cases c with
    | measure t =>
      simp only [St.prepare, Option.map_eq_some_iff] at hp
      obtain ⟨⟨fonts', out⟩, ha, he⟩ := hp
      simp only [Prod.mk.injEq] at he
      obtain ⟨rfl, -⟩ := he
      have A := addChars_added hi ha hok
      refine ⟨⟨hi.res, ?_, ?_, A.good, ?_⟩, Grow.refl _, Doc.Ext.refl _, A.grow, fun _ _ _ => rfl⟩
      · intro i f st c cid u h
        obtain ⟨l, hl⟩ := hi.has i _ _ _ _ _ h
        obtain ⟨m, hm, -⟩ := A.grow i l hl
        exact ⟨_, hm⟩
      · intro i l h
        obtain ⟨l0, h0⟩ := A.keys i l h
        exact hi.bound i l0 h0
      · intro hu p hp i hip
        exact Known.cover hi ((Covers.self base (s := { s with fonts := fonts' }) hi.res.reach).back (Grow.refl _) A.grow) hu
          (hi.known hu p hp i hip) (hi.res.items p hp i hip)
    | addFont f st face => simp only [St.prepare] at hp; split at hp <;> simp at hp
    | other k => simp only [St.prepare] at hp; split at hp <;> simp at hp
    | _ =>
      simp only [St.prepare, Option.map_eq_some_iff] at hp
      obtain ⟨_, _, he⟩ := hp
      simp at he
  · next fonts k' hp =>
    obtain ⟨p, hstep, he⟩ := Option.map_eq_some_iff.1 h
    simp only [Prod.mk.injEq] at he
    obtain ⟨rfl, rfl⟩ := he
    obtain ⟨hg, hx⟩ := step_grow hi.res.reach hstep
    have text : ∀ (t : List Nat) (out : List Nat), (∀ r ∈ t, IsScalar r) → s.addChars t = some (fonts, out) → Program.written k' = out →
        ((∃ t, k' = .text t) ∨ (∃ r t, k' = .cell r t) ∨ ∃ r t op tr, k' = .cellWithOption r t op tr) →
        Inv base ⟨p, fonts⟩ ∧ Grow s.prog.doc p.doc ∧ Doc.Ext s.prog.doc p.doc ∧ FontsGrow s.fonts fonts ∧
        (NoUL p.doc → ∀ e', Covers base ⟨p, fonts⟩ e' → Program.steps e' s.prog (some k').toList = some p) := by
      intro t out ht ha hw hk
      have A := addChars_added hi ha ht
      obtain ⟨q1, q2⟩ := plain_sim hi A.grow hstep (fun _ => by rw [hw]; exact A.chars) A.keys (by
        intro op hop f st b
        rintro rfl
        rcases hk with ⟨t, rfl⟩ | ⟨r, t, rfl⟩ | ⟨r, t, op, tr, rfl⟩ <;> simp [Program.docOp] at hop) A.good
      exact ⟨q1, hg, hx, A.grow, fun hu e' he => one (q2 hu e' he)⟩
    cases c with
    | addFont f st face =>
      simp only [St.prepare] at hp
      split at hp
      · next i hl =>
        simp only [Option.some.injEq, Prod.mk.injEq] at hp
        obtain ⟨rfl, rfl⟩ := hp
        obtain ⟨q1, q2, q3⟩ := font_sim (l := ⟨face, i, TTF.CharMap.empty⟩) hi ⟨.start, hl, hok⟩ rfl hstep
        exact ⟨q2, hg, hx, q1, fun hu e' he => one (q3 hu e' he)⟩
      · exact absurd hp (by simp)
      · simp only [Option.some.injEq, Prod.mk.injEq] at hp
        obtain ⟨rfl, rfl⟩ := hp
        have hsame : p.doc = s.prog.doc := by
          simp [Program.step, Program.docOp, Program.objectOp, Doc.step] at hstep
          rw [← hstep]
        obtain ⟨q1, q2⟩ := draw_sim hi (FontsGrow.refl _) hstep
          (by rintro (⟨t, ht⟩ | ⟨r, t, ht⟩ | ⟨r, t, op, tr, ht⟩) <;> simp at ht)
          (by rw [hsame]; exact hi.has) (by rw [hsame]; exact hi.bound) hi.good
        exact ⟨q1, hg, hx, FontsGrow.refl _, fun hu e' he => one (q2 hu e' he)⟩
    | text t =>
      simp only [St.prepare, Option.map_eq_some_iff] at hp
      obtain ⟨⟨fonts', out⟩, ha, he⟩ := hp
      simp only [Prod.mk.injEq, Option.some.injEq] at he
      obtain ⟨rfl, rfl⟩ := he
      exact text t out hok ha rfl (Or.inl ⟨_, rfl⟩)
    | cell r t =>
      simp only [St.prepare, Option.map_eq_some_iff] at hp
      obtain ⟨⟨fonts', out⟩, ha, he⟩ := hp
      simp only [Prod.mk.injEq, Option.some.injEq] at he
      obtain ⟨rfl, rfl⟩ := he
      exact text t out hok ha rfl (Or.inr (Or.inl ⟨_, _, rfl⟩))
    | cellWithOption r t opt tr =>
      simp only [St.prepare, Option.map_eq_some_iff] at hp
      obtain ⟨⟨fonts', out⟩, ha, he⟩ := hp
      simp only [Prod.mk.injEq, Option.some.injEq] at he
      obtain ⟨rfl, rfl⟩ := he
      exact text t out hok ha rfl (Or.inr (Or.inr ⟨_, _, _, _, rfl⟩))
    | measure t =>
      simp only [St.prepare, Option.map_eq_some_iff] at hp
      obtain ⟨_, _, he⟩ := hp
      simp at he
    | other k =>
      simp only [St.prepare] at hp
      split at hp
      · next ho =>
        simp only [Option.some.injEq, Prod.mk.injEq] at hp
        obtain ⟨rfl, rfl⟩ := hp
        obtain ⟨q1, q2⟩ := plain_sim hi (FontsGrow.refl _) hstep (other_chars ho) (fun i l h => ⟨l, h⟩)
          (fun op h => isOther_font ho h) hi.good
        exact ⟨q1, hg, hx, FontsGrow.refl _, fun hu e' he => one (q2 hu e' he)⟩
      · exact absurd hp (by simp)

theorem steps_append {e : Content.Env} : ∀ (a b : List Program.Call) (s : Program.St),
    Program.steps e s (a ++ b) = (Program.steps e s a).bind fun s' => Program.steps e s' b
  | [], b, s => rfl
  | c :: a, b, s => by
    simp only [List.cons_append, Program.steps]
    cases h : Program.step e s c with
    | none => rfl
    | some s1 => simp only [Option.bind_some]; exact steps_append a b s1

theorem steps_cons {base : Content.Env} {s s' : St} {c : Call} {rest : List Call} {calls : List Program.Call}
    (h : steps base s (c :: rest) = some (s', calls)) :
    ∃ s1 k calls', step base s c = some (s1, k) ∧ steps base s1 rest = some (s', calls') ∧ calls = k.toList ++ calls' := by
  simp only [steps] at h
  obtain ⟨⟨s1, k⟩, h1, h2⟩ := Option.bind_eq_some_iff.1 h
  obtain ⟨⟨s2, calls'⟩, h3, h4⟩ := Option.map_eq_some_iff.1 h2
  simp only [Prod.mk.injEq] at h4
  obtain ⟨rfl, rfl⟩ := h4
  exact ⟨s1, k, calls', h1, h3, rfl⟩

/-- A program whose fonts grow while it runs is the program it draws, with the fonts of the end. -/
theorem steps_sim {base : Content.Env} : ∀ (prog : List Call) (s s' : St) (calls : List Program.Call), Inv base s → (∀ c ∈ prog, c.Ok) →
    steps base s prog = some (s', calls) → Inv base s' ∧ Grow s.prog.doc s'.prog.doc ∧ Doc.Ext s.prog.doc s'.prog.doc ∧ FontsGrow s.fonts s'.fonts ∧
      (NoUL s'.prog.doc → ∀ e', Covers base s' e' → Program.steps e' s.prog calls = some s'.prog)
  | [], s, s', calls, hi, _, h => by
    simp only [steps, Option.some.injEq, Prod.mk.injEq] at h
    obtain ⟨rfl, rfl⟩ := h
    exact ⟨hi, Grow.refl _, Doc.Ext.refl _, FontsGrow.refl _, fun _ _ _ => rfl⟩
  | c :: prog, s, s', calls, hi, hok, h => by
    obtain ⟨s1, k, calls', h1, h2, rfl⟩ := steps_cons h
    obtain ⟨a1, a2, a3, a4, a5⟩ := step_sim hi (hok c (by simp)) h1
    obtain ⟨b1, b2, b3, b4, b5⟩ := steps_sim prog s1 s' calls' a1 (fun x hx => hok x (by simp [hx])) h2
    refine ⟨b1, a2.trans b2, a3.trans b3, a4.trans b4, fun hu e' he => ?_⟩
    rw [steps_append, a5 (hu.ext b3) e' (he.back b2 b4)]
    exact b5 hu e' he

end Verif.Typeset
