import Verif.Lemmas.Program.Names
import Verif.Spec.Asked
import Verif.Spec.Viewer
/- The text a program asks for, as codes on its pages. -/
set_option maxRecDepth 10000
namespace Verif.Program
open Doc (NoUL Base Reachable Grow)

/-! ### Codes shown by the operators of a page -/

theorem shown_noTJ : ∀ (l : List Paint.Op), (∀ o ∈ l, ∀ it, o ≠ .TJ it) → ∀ (f : Option Nat) (st : List (Option Nat)) (l' : List Paint.Op),
    ∃ f' st', Viewer.shown f st (l ++ l') = Viewer.shown f' st' l'
  | [], _, f, st, l' => ⟨f, st, rfl⟩
  | o :: l, h, f, st, l' => by
    have ih := fun f st => shown_noTJ l (fun x hx => h x (by simp [hx])) f st l'
    have h0 := h o (by simp)
    cases o <;> first | exact absurd rfl (h0 _) | exact ih _ _

theorem shown_skip : ∀ (l : List Paint.Op), (∀ o ∈ l, ∃ c, o = .fillColour c) → ∀ (f : Option Nat) (st : List (Option Nat)) (l' : List Paint.Op),
    Viewer.shown f st (l ++ l') = Viewer.shown f st l'
  | [], _, f, st, l' => rfl
  | o :: l, h, f, st, l' => by
    obtain ⟨c, rfl⟩ := h o (by simp)
    exact shown_skip l (fun x hx => h x (by simp [hx])) f st l'

/-- Codes of an item with the font number. -/
def codes1 (e : Content.Env) : Content.Item → List (Nat × Nat)
  | .text t => (Content.itemCodes e t).map fun g => (t.font, g)
  | _ => []

theorem shown_item (e : Content.Env) (i : Content.Item) (f : Option Nat) (st : List (Option Nat)) (l' : List Paint.Op) :
    ∃ f' st', Viewer.shown f st (Content.ops e i ++ l') = codes1 e i ++ Viewer.shown f' st' l' := by
  by_cases hi : ∀ t, i ≠ .text t
  · obtain ⟨f', st', h⟩ := shown_noTJ _ (Content.noTJ_item e i hi) f st l'
    refine ⟨f', st', ?_⟩
    rw [h]
    cases i <;> first | rfl | exact absurd rfl (hi _)
  · push Not at hi
    obtain ⟨t, rfl⟩ := hi
    simp only [Content.ops, Content.textOps, List.append_assoc]
    have hcol : ∀ o ∈ Content.colourOps t, ∃ c, o = .fillColour c := by
      intro o ho
      unfold Content.colourOps at ho
      split at ho
      · split at ho <;> simp at ho
        exact ⟨_, ho⟩
      · simp at ho
    have htail : ∀ o ∈ (if Content.has t.fontStyle Content.underline then Content.underlineOps e t else []) ++ (Content.borderOps t ++
        (if t.opt.ext ≠ [] then [Paint.Op.Q] else [])), ∀ it, o ≠ .TJ it := by
      intro o ho it
      rintro rfl
      simp only [List.mem_append] at ho
      rcases ho with ho | ho | ho
      · split at ho <;> simp [Content.underlineOps] at ho
      · have hl : ∀ (b : Bool) (x1 y1 x2 y2 : ℚ), Paint.Op.TJ it ∉ (if b then Content.borderLine x1 y1 x2 y2 else []) := by
          intro b x1 y1 x2 y2 h
          cases b <;> simp [Content.borderLine] at h
        simp only [Content.borderOps, List.mem_append] at ho
        rcases ho with ((ho | ho) | ho) | ho <;> exact hl _ _ _ _ _ ho
      · split at ho <;> simp at ho
    have hpre : ∀ o ∈ (if t.opt.ext ≠ [] then [Paint.Op.q] else []) ++ t.opt.ext.map Paint.Op.gs, ∀ it, o ≠ .TJ it := by
      intro o ho it
      rintro rfl
      simp only [List.mem_append, List.mem_map] at ho
      rcases ho with ho | ⟨_, _, ho⟩
      · split at ho <;> simp at ho
      · simp at ho
    obtain ⟨f1, st1, h1⟩ := shown_noTJ _ hpre f st ([.BT, .Td (Content.calX t) (Content.calY e t), .Tf t.font t.fontSize, .Tc t.charSpacing] ++
      (Content.colourOps t ++ ([.TJ (Content.tjOf e t), .ET] ++ ((if Content.has t.fontStyle Content.underline then Content.underlineOps e t else []) ++
      (Content.borderOps t ++ ((if t.opt.ext ≠ [] then [Paint.Op.Q] else []) ++ l'))))))
    obtain ⟨f2, st2, h2⟩ := shown_noTJ _ htail (some t.font) st1 l'
    refine ⟨f2, st2, ?_⟩
    rw [List.append_assoc] at h1
    rw [h1]
    simp only [List.cons_append, List.nil_append, Viewer.shown]
    rw [shown_skip _ hcol]
    have hco : (Content.tjOf e t).filterMap Viewer.codeOf = Content.itemCodes e t := by
      rw [← Content.codes_tjOf]
      congr 1
    simp only [Viewer.shown, hco]
    simp only [List.append_assoc] at h2
    rw [h2]; rfl

theorem shown_page (e : Content.Env) : ∀ (items : List Content.Item) (f : Option Nat) (st : List (Option Nat)),
    Viewer.shown f st (Content.pageOps e items) = items.flatMap (codes1 e)
  | [], f, st => by cases st <;> rfl
  | i :: items, f, st => by
    simp only [Content.pageOps, List.flatMap_cons]
    obtain ⟨f', st', h⟩ := shown_item e i f st (items.flatMap (Content.ops e))
    rw [h, show items.flatMap (Content.ops e) = Content.pageOps e items from rfl, shown_page e items f' st']

theorem shown_near {a b : List Paint.Op} (h : List.Forall₂ ContentReader.NearOp a b) : ∀ (f : Option Nat) (st : List (Option Nat)),
    Viewer.shown f st a = Viewer.shown f st b := by
  induction h with
  | nil => intro f st; rfl
  | @cons x y a b hxy _ ih =>
    intro f st
    by_cases he : x = y
    · subst he
      cases x <;> simp only [Viewer.shown, ih]
    · cases x <;> cases y <;> simp only [ContentReader.NearOp] at hxy <;>
        first | exact absurd hxy he | exact absurd rfl he | (obtain ⟨rfl, _⟩ := hxy; simp only [Viewer.shown, ih]; done) | (simp only [Viewer.shown, ih]; done)

/-! ### From calls to codes -/

def code (e : Content.Env) (a : Asked) : Option (Nat × Nat) := ((e.fonts a.number).run.map.val a.char).map fun g => (a.number, g)

theorem written_call {n : Nat} {c : Call} {o : Option Doc.Op} (h : docOp n c = some o) {d : Doc.Doc} {en : Doc.Entry} {k : Content.Call}
    (hk : contentCall d en c = some k) : Drawing.written k = written c := by
  cases c with
  | object o => simp [contentCall] at hk
  | plain x =>
    simp only [docOp, Option.map_eq_some_iff] at h
    obtain ⟨b, hb, rfl⟩ := h
    simp only [contentCall, Option.some.injEq] at hk
    subst hk
    cases x <;> first | rfl | simp [plainCall] at hb
  | setColourSpace nm => simp only [contentCall, Option.map_eq_some_iff] at hk; obtain ⟨_, _, rfl⟩ := hk; rfl
  | image a b => simp only [contentCall, Option.map_eq_some_iff] at hk; obtain ⟨_, _, rfl⟩ := hk; rfl
  | imageOpt a b c d => simp only [contentCall, Option.map_eq_some_iff] at hk; obtain ⟨_, _, rfl⟩ := hk; rfl
  | _ => simp only [contentCall, Option.some.injEq] at hk; subst hk; rfl

theorem no_text {n : Nat} {c : Call} {op : Doc.Op} (h : docOp n c = some (some op)) {d d' : Doc.Doc} (hs : Doc.step d op = (d', .err)) :
    written c = [] := by
  cases c <;> first | rfl | skip
  all_goals
    simp only [docOp, Option.some.injEq] at h
    subst h
    simp only [Doc.step] at hs
    split at hs
    · simp at hs
    · unfold Doc.Doc.appendPaged at hs
      split at hs <;> simp at hs

theorem quiet_text {c : Call} {d : Doc.Doc} {en : Doc.Entry} (h : contentCall d en c = none) : written c = [] := by
  cases c <;> first | rfl | simp [contentCall] at h

/-- A step adds the codes of the call's text to the current page. -/
theorem step_codes {e : Content.Env} {s s' : St} {c : Call} (hs : step e s c = some s') (hp : s.content.page < s.content.pages.length) (k : Nat) :
    Content.styles e (s'.content.pages.getD k []) = Content.styles e (s.content.pages.getD k []) ++
      (if s.content.page = k then ((written c).filterMap (e.fonts (s.content.cur.font + 1)).run.map.val).map (·, Content.curStyle s.content.cur) else []) := by
  have one : ∀ (n : Nat) (o : Option Doc.Op) (_ : docOp n c = some o) (d : Doc.Doc) (en : Doc.Entry) (x : Content.Call)
      (_ : contentCall d en c = some x) (_ : Content.step e s.content x = some s'.content),
      Content.styles e (s'.content.pages.getD k []) = Content.styles e (s.content.pages.getD k []) ++
      (if s.content.page = k then ((written c).filterMap (e.fonts (s.content.cur.font + 1)).run.map.val).map (·, Content.curStyle s.content.cur) else []) := by
    intro n o h1 d en x h2 h3
    have := Content.steps_styles (e := e) k [x] s.content s'.content (by simp [Content.steps, h3]) hp
    rw [this]
    congr 1
    by_cases hpg : isPage c = true
    · cases c <;> simp [isPage] at hpg
      simp only [contentCall, Option.some.injEq] at h2
      subst h2
      simp [Drawing.drawn, written]
    · obtain ⟨q1, q2⟩ := contentCall_other h1 (by simpa using hpg) h2
      rw [Content.drawn_other q1 q2, ← written_call h1 h2]
      simp [Drawing.drawn, Content.curStyle]
  cases step_made hs with
  | pen a1 x a2 a3 a4 a5 => exact one _ _ a1 _ _ x a2 a4
  | err op a1 a2 a3 a5 => rw [a3, no_text a1 a2]; simp
  | quiet op a1 a2 a3 a4 a5 => rw [a4, quiet_text a3]; simp
  | both op a1 a2 x a3 a4 a5 => exact one _ _ a1 _ _ x a3 a4

theorem step_page {e : Content.Env} {s s' : St} {c : Call} (hs : step e s c = some s') (hp : s.content.page + 1 = s.content.pages.length) :
    s'.content.page + 1 = s'.content.pages.length ∧ s'.content.page = if isPage c then s.content.page + 1 else s.content.page := by
  have one : ∀ (n : Nat) (o : Option Doc.Op) (_ : docOp n c = some o) (d : Doc.Doc) (en : Doc.Entry) (x : Content.Call)
      (_ : contentCall d en c = some x) (_ : Content.step e s.content x = some s'.content),
      s'.content.page + 1 = s'.content.pages.length ∧ s'.content.page = if isPage c then s.content.page + 1 else s.content.page := by
    intro n o h1 d en x h2 h3
    by_cases hpg : isPage c = true
    · cases c <;> simp [isPage] at hpg
      next x' =>
      simp only [contentCall, Option.some.injEq] at h2
      subst h2
      cases Content.step_effect h3 with
      | addPage _ hq hc => rw [hq, hc]; simp [isPage, hp]
      | other _ ha => exact absurd rfl (ha x')
    · have hpg : isPage c = false := by simpa using hpg
      obtain ⟨q1, q2⟩ := contentCall_other h1 hpg h2
      obtain ⟨b1, items, b2⟩ := content_other h3 q1 q2
      rw [b1, b2, hpg]; simp [hp]
  have nop : ∀ op, docOp s.next c = some (some op) → op ≠ .addPage → isPage c = false := by
    intro op h1 h2
    cases c <;> first | rfl | (simp only [docOp, Option.some.injEq] at h1; exact absurd h1.symm h2)
  cases step_made hs with
  | pen a1 x a2 a3 a4 a5 => exact one _ _ a1 _ _ x a2 a4
  | err op a1 a2 a3 a5 =>
    have : isPage c = false := nop op a1 (by rintro rfl; simp [Doc.step] at a2)
    rw [a3, this]; exact ⟨hp, rfl⟩
  | quiet op a1 a2 a3 a4 a5 =>
    have : isPage c = false := by cases c <;> first | rfl | simp [contentCall] at a3
    rw [a4, this]; exact ⟨hp, rfl⟩
  | both op a1 a2 x a3 a4 a5 => exact one _ _ a1 _ _ x a3 a4

/-- The codes on the pages are those of the characters asked for. -/
theorem steps_codes {e : Content.Env} (k : Nat) : ∀ (prog : List Call) (fam : Nat) (s s' : St), steps e s prog = some s' →
    s.content.page + 1 = s.content.pages.length →
    (Content.styles e (s'.content.pages.getD k [])).map (fun p => (p.2.font + 1, p.1)) =
      (Content.styles e (s.content.pages.getD k [])).map (fun p => (p.2.font + 1, p.1)) ++ (asked e k fam s.content.page s prog).filterMap (code e)
  | [], fam, s, s', h, _ => by
    obtain rfl : s = s' := by simpa [steps] using h
    simp [asked]
  | c :: prog, fam, s, s', h, hp => by
    obtain ⟨s1, h1, h2⟩ := steps_cons h
    obtain ⟨p1, p2⟩ := step_page h1 hp
    rw [steps_codes k prog (familyAfter s fam c) s1 s' h2 p1, step_codes h1 (by omega) k]
    simp only [asked, h1, p2, List.filterMap_append, List.map_append, List.append_assoc]
    congr 2
    split
    · rw [List.filterMap_map, List.map_map, List.map_filterMap]
      congr 1
    · rfl

/-! ### Families -/

/-- The current font is of the family. -/
def FamOK (s : St) (fam : Nat) : Prop := ∀ i c, s.doc.curFont = some (i, c) → ∃ st cid u, s.doc.idents[i]? = some (.font fam st c cid u)

theorem FamOK.keep {s s' : St} {fam : Nat} (h : FamOK s fam) (hx : Doc.Ext s.doc s'.doc) (hc : s'.doc.curFont = s.doc.curFont) : FamOK s' fam := by
  intro i c hi
  rw [hc] at hi
  obtain ⟨st, cid, u, h1⟩ := h i c hi
  exact ⟨st, cid, u, Doc.prefix_get hx h1⟩

theorem docOp_setFont {n : Nat} {c : Call} {f st : Nat} (h : docOp n c = some (some (.setFont f st))) : ∃ size, c = .setFont f st size := by
  cases c with
  | object o =>
    simp only [docOp] at h
    split at h
    · next ho => simp only [Option.some.injEq] at h; subst h; simp [objectOp] at ho
    · simp at h
  | plain k =>
    simp only [docOp, Option.map_eq_some_iff] at h
    obtain ⟨b, _, b', _, h⟩ := h
    simp at h
  | setFont f' st' size => simp only [docOp, Option.some.injEq, Doc.Op.setFont.injEq] at h; obtain ⟨rfl, rfl⟩ := h; exact ⟨size, rfl⟩
  | _ => simp [docOp] at h

theorem FamOK.setFont {s s' : St} {fam f st : Nat} {o : Doc.Outcome} (h : FamOK s fam) (hs : Doc.step s.doc (.setFont f st) = (s'.doc, o)) :
    FamOK s' (if (Doc.step s.doc (.setFont f st)).2 = .ok then f else fam) := by
  have hu : Doc.step s.doc (.setFont f st) = s.doc.setFont f st := rfl
  have hcase : (∃ i a b ct d g, Doc.findFrom (Doc.isFont f st) 0 s.doc.objs = some (i, .font a b ct d g) ∧
      s.doc.setFont f st = ({ s.doc with curFont := some (i, ct) }, .ok)) ∨ s.doc.setFont f st = (s.doc, .err) := by
    unfold Doc.Doc.setFont
    split
    · next hf => exact Or.inl ⟨_, _, _, _, _, _, hf, rfl⟩
    · exact Or.inr rfl
  rw [hu] at hs ⊢
  rcases hcase with ⟨i, a, b, ct, d, g, hf, h0⟩ | h0
  · rw [h0, Prod.mk.injEq] at hs
    rw [h0, if_pos rfl]
    intro j c' hj
    rw [← hs.1] at hj ⊢
    simp only [Option.some.injEq, Prod.mk.injEq] at hj
    obtain ⟨rfl, rfl⟩ := hj
    obtain ⟨j', h1, h2, h3, -⟩ := Doc.findFrom_some hf
    rw [Nat.zero_add] at h1
    subst h1
    simp only [Doc.isFont, decide_eq_true_eq] at h3
    exact ⟨_, _, _, by rw [← h3.1]; exact Doc.ident_at h2⟩
  · rw [h0, Prod.mk.injEq] at hs
    rw [h0, if_neg (by simp)]
    exact h.keep (by rw [← hs.1]; exact Doc.Ext.refl _) (by rw [← hs.1])

theorem FamOK.step {e : Content.Env} {s s' : St} {c : Call} {fam : Nat} (h : FamOK s fam) (hs : step e s c = some s') :
    FamOK s' (familyAfter s fam c) := by
  have other : ∀ op o, docOp s.next c = some (some op) → Doc.step s.doc op = (s'.doc, o) → FamOK s' (familyAfter s fam c) := by
    intro op o h1 h2
    by_cases hf : ∃ f st, op = .setFont f st
    · obtain ⟨f, st, rfl⟩ := hf
      obtain ⟨size, rfl⟩ := docOp_setFont h1
      exact h.setFont h2
    · have hnf : ∀ f st, op ≠ .setFont f st := fun f st e => hf ⟨f, st, e⟩
      have hfam : familyAfter s fam c = fam := by
        cases c <;> first | rfl | (simp only [docOp, Option.some.injEq] at h1; exact absurd h1.symm (hnf _ _))
      rw [hfam]
      have hx : Doc.Ext s.doc s'.doc := by have := Doc.step_ext s.doc op; rwa [h2] at this
      refine h.keep hx ?_
      by_cases ht : ∃ t, op = .setTransparency t
      · obtain ⟨t, rfl⟩ := ht
        have := Doc.CU.setTr s.doc t
        rwa [h2] at this
      · by_cases hc : op = .clearTransparency
        · subst hc; simp only [Doc.step, Prod.mk.injEq] at h2; rw [← h2.1]
        · have := (Doc.cu_step s.doc op (fun t e => ht ⟨t, e⟩) hc hnf).2
          rwa [h2] at this
  cases step_made hs with
  | pen a1 x a2 a3 a4 a5 =>
    have hfam : familyAfter s fam c = fam := by cases c <;> first | rfl | simp [docOp] at a1
    rw [hfam]
    exact h.keep (by rw [a3]; exact Doc.Ext.refl _) (by rw [a3])
  | err op a1 a2 => exact other op _ a1 a2
  | quiet op a1 a2 => exact other op _ a1 a2
  | both op a1 a2 => exact other op _ a1 a2

/-- A text call needs a current font. -/
theorem text_font {e : Content.Env} {s s' : St} {c : Call} (hs : step e s c = some s') (hw : written c ≠ []) : ∃ i k, s.doc.curFont = some (i, k) := by
  cases hc : s.doc.curFont with
  | some p => exact ⟨p.1, p.2, rfl⟩
  | none =>
    exfalso
    have hcell : ∀ tr, (s.doc.cachedTransparency tr).1.curFont = none := fun tr => by rw [(Doc.CU.cachedTransparency s.doc tr).2, hc]
    cases c <;> first | exact hw rfl | skip
    all_goals simp [Program.step, docOp, Doc.step, hc, hcell] at hs

/-- The fonts of the characters asked for are in the resources. -/
def AskedNamed (d : Doc.Doc) (a : Asked) : Prop := NoUL d → ∃ r ∈ d.relFonts, a.number = r.count + 1 ∧ r.family = a.family

theorem asked_named {e : Content.Env} (k : Nat) : ∀ (prog : List Call) (fam n : Nat) (s s' : St), steps e s prog = some s' → Res s → FamOK s fam →
    ∀ a ∈ asked e k fam n s prog, AskedNamed s'.doc a
  | [], fam, n, s, s', _, _, _, a, ha => by simp [asked] at ha
  | c :: prog, fam, n, s, s', h, hr, hf, a, ha => by
    obtain ⟨s1, h1, h2⟩ := steps_cons h
    simp only [asked, h1, List.mem_append] at ha
    rcases ha with ha | ha
    · split at ha
      · obtain ⟨r, hr', rfl⟩ := List.mem_map.1 ha
        have hd := (steps_doc _ s s' h).1
        intro hu
        have hx : Doc.Ext s.doc s'.doc := by rw [hd]; exact Doc.exec_ext _ _
        obtain ⟨i, ct, hc⟩ := text_font h1 (by intro e0; rw [e0] at hr'; simp at hr')
        obtain ⟨x, x1, x2, x3⟩ := (Doc.reachable_names hr.reach).cur (hu.ext hx) i ct hc
        obtain ⟨st, cid, u, q1, -⟩ := (Doc.reachable_res hr.reach).fontObj x x1
        obtain ⟨st', cid', u', q2⟩ := hf i ct hc
        rw [x2, q2] at q1
        simp only [Option.some.injEq, Doc.Obj.font.injEq] at q1
        have hg : Grow s.doc s'.doc := by rw [hd]; exact Doc.grow_exec (Doc.reachable_base hr.reach) _
        exact ⟨x, hg.fonts.subset x1, by simp only [hr.font i ct hc, x3], q1.1.symm⟩
      · simp at ha
    · exact asked_named k prog _ _ s1 s' h2 (hr.step h1) (hf.step h1) a ha

theorem asked_text {e : Content.Env} (k : Nat) : ∀ (prog : List Call) (fam n : Nat) (s s' : St), steps e s prog = some s' →
    (asked e k fam n s prog).map (·.char) = textOn k n prog
  | [], fam, n, s, s', _ => rfl
  | c :: prog, fam, n, s, s', h => by
    obtain ⟨s1, h1, h2⟩ := steps_cons h
    simp only [asked, h1, textOn, List.map_append]
    rw [asked_text k prog _ _ s1 s' h2]
    congr 1
    split
    · rw [List.map_map]; exact List.map_id _
    · rfl

end Verif.Program
