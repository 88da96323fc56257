import Verif.Lemmas.Embed.Metrics
import Verif.Lemmas.Program.Typeset
/- The characters a program writes, in the fonts its caller gave. -/
set_option maxRecDepth 10000
namespace Verif.Typeset
open Doc (NoUL Base Reachable Grow Obj)

/-! ### Fonts of a document -/

/-- The fonts among the objects: family, style, what the caller gave. -/
def regOf (fonts : Nat → Option Loaded) : Nat → List Obj → List (Nat × Nat × Option Face)
  | _, [] => []
  | i, .font f st _ _ _ :: l => (f, st, (fonts i).map (·.face)) :: regOf fonts (i + 1) l
  | i, _ :: l => regOf fonts (i + 1) l

def isFontObj : Obj → Bool
  | .font _ _ _ _ _ => true
  | _ => false

theorem regOf_other {fonts : Nat → Option Loaded} {o : Obj} (h : isFontObj o = false) (i : Nat) (l : List Obj) :
    regOf fonts i (o :: l) = regOf fonts (i + 1) l := by
  cases o <;> first | rfl | simp [isFontObj] at h

theorem regOf_append (fonts : Nat → Option Loaded) : ∀ (a b : List Obj) (i : Nat), regOf fonts i (a ++ b) = regOf fonts i a ++ regOf fonts (i + a.length) b
  | [], b, i => by simp [regOf]
  | o :: a, b, i => by
    have ih := regOf_append fonts a b (i + 1)
    rw [show i + 1 + a.length = i + (o :: a).length by simp; omega] at ih
    cases ho : isFontObj o
    · rw [List.cons_append, regOf_other ho, regOf_other ho, ih]
    · cases o <;> first | (simp only [List.cons_append, regOf, ih]; done) | simp [isFontObj] at ho

theorem regOf_congr {fonts fonts' : Nat → Option Loaded} : ∀ (l : List Obj) (i : Nat),
    (∀ (j : Nat) o, l[j]? = some o → isFontObj o = true → (fonts (i + j)).map (·.face) = (fonts' (i + j)).map (·.face)) → regOf fonts i l = regOf fonts' i l
  | [], i, _ => rfl
  | o :: l, i, h => by
    have ih := regOf_congr (fonts := fonts) (fonts' := fonts') l (i + 1) (fun j o' hj ho => by
      have := h (j + 1) o' (by simpa using hj) ho
      rwa [show i + (j + 1) = i + 1 + j by omega] at this)
    have h0 := h 0 o rfl
    cases ho : isFontObj o
    · rw [regOf_other ho, regOf_other ho, ih]
    · have h1 := h0 ho
      rw [Nat.add_zero] at h1
      clear h0
      cases o <;> first | (simp only [regOf, ih, h1]; done) | simp [isFontObj] at ho

theorem regOf_none {fonts : Nat → Option Loaded} : ∀ (l : List Obj) (i : Nat), (∀ o ∈ l, isFontObj o = false) → regOf fonts i l = []
  | [], i, _ => rfl
  | o :: l, i, h => by rw [regOf_other (h o (by simp))]; exact regOf_none l _ (fun x hx => h x (by simp [hx]))

theorem regOf_ident (fonts : Nat → Option Loaded) : ∀ (l : List Obj) (i : Nat), regOf fonts i (l.map Obj.ident) = regOf fonts i l
  | [], i => rfl
  | o :: l, i => by
    have ih := regOf_ident fonts l (i + 1)
    cases o <;> simp only [List.map_cons, Obj.ident, regOf, ih]

theorem find_regOf (fonts : Nat → Option Loaded) (f st : Nat) : ∀ (l : List Obj) (i : Nat),
    (∃ j a b c d e, Doc.findFrom (Doc.isFont f st) i l = some (j, .font a b c d e) ∧
      ∃ x, (regOf fonts i l).find? (fun x => x.1 = f ∧ x.2.1 = Doc.noUnderline st) = some x ∧ x.2.2 = (fonts j).map (·.face)) ∨
    (Doc.findFrom (Doc.isFont f st) i l = none ∧ (regOf fonts i l).find? (fun x => x.1 = f ∧ x.2.1 = Doc.noUnderline st) = none)
  | [], i => by right; simp [Doc.findFrom, regOf]
  | o :: l, i => by
    have ih := find_regOf fonts f st l (i + 1)
    cases ho : isFontObj o
    · have hno : Doc.isFont f st o = false := by cases o <;> first | rfl | simp [isFontObj] at ho
      simp only [Doc.findFrom, hno, regOf_other ho]
      exact ih
    · cases o with
      | font a b c d e =>
        by_cases hm : a = f ∧ b = Doc.noUnderline st
        · left
          refine ⟨i, a, b, c, d, e, ?_, (a, b, (fonts i).map (·.face)), ?_, rfl⟩
          · simp [Doc.findFrom, Doc.isFont, hm]
          · simp [regOf, hm]
        · have h1 : Doc.isFont f st (.font a b c d e) = false := by simpa [Doc.isFont] using hm
          simp only [Doc.findFrom, h1, regOf, List.find?_cons, decide_eq_false hm]
          exact ih
      | _ => simp [isFontObj] at ho

/-! ### Invariants -/

def RegOK (s : St) (reg : Registered) : Prop := regOf s.fonts 0 s.prog.doc.idents = reg.map fun x => (x.1, x.2.1, some x.2.2)

def CurOK (s : St) (cur : Option Face) : Prop := ∀ i c, s.prog.doc.curFont = some (i, c) → ∃ l, s.fonts i = some l ∧ cur = some l.face

theorem pick_find {s : St} {reg : Registered} (h : RegOK s reg) (f st : Nat) :
    (∃ j a b c d e x, Doc.findFrom (Doc.isFont f st) 0 s.prog.doc.objs = some (j, .font a b c d e) ∧ pick reg f st = some x ∧
      some x = (s.fonts j).map (·.face)) ∨
    (Doc.findFrom (Doc.isFont f st) 0 s.prog.doc.objs = none ∧ pick reg f st = none) := by
  have hr : regOf s.fonts 0 s.prog.doc.objs = reg.map fun x => (x.1, x.2.1, some x.2.2) := by
    rw [← regOf_ident]; exact h
  have hp : pick reg f st = (reg.find? fun x => x.1 = f ∧ x.2.1 = Doc.noUnderline st).map (·.2.2) := rfl
  have hfind : ∀ reg : Registered, (reg.map fun x => (x.1, x.2.1, some x.2.2)).find? (fun x => x.1 = f ∧ x.2.1 = Doc.noUnderline st) =
      (reg.find? fun x => x.1 = f ∧ x.2.1 = Doc.noUnderline st).map fun x => (x.1, x.2.1, some x.2.2) := by
    intro reg
    induction reg with
    | nil => rfl
    | cons a reg ih =>
      rw [List.map_cons, List.find?_cons, List.find?_cons, ih]
      by_cases hm : a.1 = f ∧ a.2.1 = Doc.noUnderline st <;> simp [hm]
  have h := find_regOf s.fonts f st s.prog.doc.objs 0
  rw [hr, hfind] at h
  rcases h with ⟨j, a, b, c, d, e, h1, x, h2, h3⟩ | ⟨h1, h2⟩
  · obtain ⟨y, hy, rfl⟩ := Option.map_eq_some_iff.1 h2
    exact .inl ⟨j, a, b, c, d, e, y.2.2, h1, by rw [hp, hy]; rfl, h3⟩
  · exact .inr ⟨h1, by rw [hp, Option.map_eq_none_iff.1 h2]; rfl⟩

/-- The current font changes only when SetFont finds one. -/
theorem step_cur {e : Content.Env} {s s' : Program.St} {c : Program.Call} (hs : Program.step e s c = some s')
    (hn : ∀ f st size, c ≠ .setFont f st size) : s'.doc.curFont = s.doc.curFont := by
  have other : ∀ op o, Program.docOp s.next c = some (some op) → Doc.step s.doc op = (s'.doc, o) → s'.doc.curFont = s.doc.curFont := by
    intro op o h1 h2
    have hnf : ∀ f st, op ≠ .setFont f st := by
      rintro f st rfl
      obtain ⟨size, rfl⟩ := Program.docOp_setFont h1
      exact hn _ _ _ rfl
    by_cases ht : ∃ t, op = .setTransparency t
    · obtain ⟨t, rfl⟩ := ht
      have := Doc.CU.setTr s.doc t
      rwa [h2] at this
    · by_cases hc : op = .clearTransparency
      · subst hc; simp only [Doc.step, Prod.mk.injEq] at h2; rw [← h2.1]
      · have := (Doc.cu_step s.doc op (fun t e => ht ⟨t, e⟩) hc hnf).2
        rwa [h2] at this
  cases Program.step_made hs with
  | pen a1 x a2 a3 a4 a5 => rw [a3]
  | err op a1 a2 => exact other op _ a1 a2
  | quiet op a1 a2 => exact other op _ a1 a2
  | both op a1 a2 => exact other op _ a1 a2

theorem step_setFont {e : Content.Env} {s s' : Program.St} {f st : Nat} {size : ℚ} (hs : Program.step e s (.setFont f st size) = some s') :
    (∃ i a b ct d g, Doc.findFrom (Doc.isFont f st) 0 s.doc.objs = some (i, .font a b ct d g) ∧ s'.doc = { s.doc with curFont := some (i, ct) }) ∨
    (Doc.findFrom (Doc.isFont f st) 0 s.doc.objs = none ∧ s'.doc = s.doc) := by
  have hd : s'.doc = (s.doc.setFont f st).1 := by
    have := (Program.steps_doc (e := e) [.setFont f st size] s s' (by simp [Program.steps, hs])).1
    rw [this]; rfl
  rcases hfind : Doc.findFrom (Doc.isFont f st) 0 s.doc.objs with _ | ⟨i, o⟩
  · right; refine ⟨rfl, ?_⟩; rw [hd]; unfold Doc.Doc.setFont; rw [hfind]
  · left
    obtain ⟨j, h1, h2, h3, -⟩ := Doc.findFrom_some hfind
    cases o <;> first | (simp [Doc.isFont] at h3; done) | skip
    refine ⟨_, _, _, _, _, _, rfl, ?_⟩
    rw [hd]; unfold Doc.Doc.setFont; rw [hfind]

/-- How a call runs. -/
theorem step_inv {base : Content.Env} {s s' : St} {c : Call} {k : Option Program.Call} (h : step base s c = some (s', k)) :
    (k = none ∧ s'.prog = s.prog ∧ ∃ t, c = .measure t) ∨
    ∃ pc, k = some pc ∧ Program.step (St.env base { s with fonts := s'.fonts }) s.prog pc = some s'.prog ∧ s.prepare c = some (s'.fonts, some pc) := by
  unfold step at h
  split at h
  · exact absurd h (by simp)
  · next fonts hp =>
    simp only [Option.some.injEq, Prod.mk.injEq] at h
    obtain ⟨rfl, rfl⟩ := h
    left
    refine ⟨rfl, rfl, ?_⟩
    cases c with
    | measure t => exact ⟨t, rfl⟩
    | addFont f st face => simp only [St.prepare] at hp; split at hp <;> simp at hp
    | other c => simp only [St.prepare] at hp; split at hp <;> simp at hp
    | _ =>
      simp only [St.prepare, Option.map_eq_some_iff] at hp
      obtain ⟨_, _, he⟩ := hp
      simp at he
  · next fonts pc hp =>
    simp only [Option.map_eq_some_iff, Prod.mk.injEq] at h
    obtain ⟨p, h1, rfl, rfl⟩ := h
    exact .inr ⟨pc, rfl, h1, hp⟩

/-- Calls other than a successful AddTTFFont add no font. -/
theorem step_objs {base : Content.Env} {s s' : St} {c : Call} {k : Option Program.Call} (hi : Inv base s) (h : step base s c = some (s', k))
    (hi' : Inv base s') (hx : Doc.Ext s.prog.doc s'.prog.doc) (hc : ∀ f st face, c = .addFont f st face → accepted face = false) :
    ∃ l, s'.prog.doc.idents = s.prog.doc.idents ++ l ∧ ∀ o ∈ l, isFontObj o = false := by
  have key : Doc.NF (fun _ _ => True) s.prog.doc s'.prog.doc := by
    rcases step_inv h with ⟨-, h1, -⟩ | ⟨pc, -, h1, h2⟩
    · rw [h1]; exact Doc.NF.refl _
    · cases c with
      | addFont f' st' face =>
        simp only [St.prepare] at h2
        have := hc _ _ _ rfl
        unfold accepted at this
        split at h2
        · next hl => rw [hl] at this; cases this
        · cases h2
        · simp only [Option.some.injEq, Prod.mk.injEq] at h2
          obtain ⟨-, rfl⟩ := h2
          simp [Program.step, Program.docOp, Program.objectOp, Doc.step] at h1
          rw [← h1]; exact Doc.NF.refl _
      | other c =>
        simp only [St.prepare] at h2
        split at h2
        · next ho =>
          simp only [Option.some.injEq, Prod.mk.injEq] at h2
          obtain ⟨-, rfl⟩ := h2
          exact step_nf h1 (fun op hop => isOther_font ho hop)
        · cases h2
      | measure t =>
        simp only [St.prepare, Option.map_eq_some_iff] at h2
        obtain ⟨_, _, he⟩ := h2
        simp at he
      | _ =>
        simp only [St.prepare, Option.map_eq_some_iff] at h2
        obtain ⟨_, _, he⟩ := h2
        simp only [Prod.mk.injEq, Option.some.injEq] at he
        obtain ⟨-, rfl⟩ := he
        refine step_nf h1 (fun op hop f st b => ?_)
        rintro rfl
        simp [Program.docOp] at hop
  obtain ⟨l, hl⟩ := hx
  refine ⟨l, hl.symm, fun o ho => ?_⟩
  cases hf : isFontObj o
  · rfl
  · exfalso
    obtain ⟨j, hj, rfl⟩ := List.getElem_of_mem ho
    have hat : s'.prog.doc.idents[s.prog.doc.idents.length + j]? = some l[j] := by
      rw [← hl, List.getElem?_append_right (by omega), Nat.add_sub_cancel_left, List.getElem?_eq_getElem hj]
    generalize l[j] = o at hat hf
    cases o <;> first | (simp [isFontObj] at hf; done) | skip
    have := (List.getElem?_eq_some_iff.1 (fonts_kept hi.res.reach hi'.res.reach key hat)).1
    omega

theorem face_kept {base : Content.Env} {s : St} {fonts : Nat → Option Loaded} (hi : Inv base s) (hg : FontsGrow s.fonts fonts) :
    regOf s.fonts 0 s.prog.doc.idents = regOf fonts 0 s.prog.doc.idents := by
  refine regOf_congr _ _ fun j o hj ho => ?_
  cases o <;> first | (simp [isFontObj] at ho; done) | skip
  obtain ⟨l, hl⟩ := hi.has j _ _ _ _ _ hj
  obtain ⟨m, hm, -⟩ := hg j l hl
  rw [Nat.zero_add, hl, hm]; rfl

theorem step_reg {base : Content.Env} {s s' : St} {c : Call} {k : Option Program.Call} {reg : Registered} (hi : Inv base s) (hok : c.Ok)
    (h : step base s c = some (s', k)) (hr : RegOK s reg) : RegOK s' (registerFont reg c) := by
  obtain ⟨hi', -, hx, hg, -⟩ := step_sim hi hok h
  unfold RegOK at hr ⊢
  rw [face_kept hi hg] at hr
  by_cases hc : ∃ f st face, c = .addFont f st face ∧ accepted face = true
  · obtain ⟨f, st, face, rfl, ha⟩ := hc
    rcases step_inv h with ⟨-, -, t, ht⟩ | ⟨pc, -, h1, h2⟩
    · cases ht
    · simp only [St.prepare] at h2
      unfold accepted at ha
      split at h2
      · next i hl =>
        simp only [Option.some.injEq, Prod.mk.injEq] at h2
        obtain ⟨h2, rfl⟩ := h2
        have hdoc : s'.prog.doc = s.prog.doc.addFont f st := by
          simp only [Program.step, Program.docOp, Program.objectOp, Doc.step, Program.contentCall, if_true, Option.some.injEq] at h1
          rw [← h1]
        obtain ⟨cnt, hid, -⟩ := Doc.addFont_cases s.prog.doc (Doc.reachable_base hi.res.reach) f st
        rw [hdoc, hid, regOf_append, hr]
        have : s'.fonts (s.prog.doc.objs.length + 4) = some ⟨face, i, TTF.CharMap.empty⟩ := by rw [← h2]; exact Function.update_self ..
        have hacc : accepted face = true := by unfold accepted; rw [hl]
        simp only [registerFont, hacc, if_true, List.map_append, List.map_cons, List.map_nil, regOf, Nat.zero_add, Doc.idents_len]
        rw [show s.prog.doc.objs.length + 1 + 1 + 1 + 1 = s.prog.doc.objs.length + 4 by omega, this]; rfl
      · next hl => rw [hl] at ha; cases ha
      · next hl => rw [hl] at ha; cases ha
  · have hc' : ∀ f st face, c = .addFont f st face → accepted face = false := by
      intro f st face hcc
      cases hb : accepted face
      · rfl
      · exact absurd ⟨f, st, face, hcc, hb⟩ hc
    obtain ⟨l, hl, hno⟩ := step_objs hi h hi' hx hc'
    have hreg : registerFont reg c = reg := by
      cases c with
      | addFont f st face => simp only [registerFont, hc' _ _ _ rfl]; rfl
      | _ => rfl
    rw [hreg, hl, regOf_append, hr, regOf_none l _ hno, List.append_nil]

/-- The call made for a call that is not SetFont is not SetFont. -/
theorem prepare_setFont {s : St} {c : Call} {fonts : Nat → Option Loaded} {f st : Nat} {size : ℚ} (h : s.prepare c = some (fonts, some (.setFont f st size))) :
    c = .other (.setFont f st size) ∧ fonts = s.fonts := by
  cases c with
  | addFont f' st' face => simp only [St.prepare] at h; split at h <;> simp at h
  | other c =>
    simp only [St.prepare] at h
    split at h
    · simp only [Option.some.injEq, Prod.mk.injEq] at h
      exact ⟨by rw [h.2], h.1.symm⟩
    · cases h
  | _ =>
    simp only [St.prepare, Option.map_eq_some_iff] at h
    obtain ⟨_, _, he⟩ := h
    simp at he

theorem CurOK.grow {s s' : St} {cur : Option Face} (h : CurOK s cur) (hg : FontsGrow s.fonts s'.fonts)
    (hc : s'.prog.doc.curFont = s.prog.doc.curFont) : CurOK s' cur := by
  intro i c hi
  rw [hc] at hi
  obtain ⟨l, h1, h2⟩ := h i c hi
  obtain ⟨m, hm, -⟩ := hg i l h1
  exact ⟨_, hm, h2⟩

theorem step_select {base : Content.Env} {s s' : St} {c : Call} {k : Option Program.Call} {reg : Registered} {cur : Option Face} (hi : Inv base s)
    (hok : c.Ok) (h : step base s c = some (s', k)) (hr : RegOK s reg) (hcur : CurOK s cur) : CurOK s' (selectFont reg cur c) := by
  obtain ⟨hi', -, hx, hg, -⟩ := step_sim hi hok h
  rcases step_inv h with ⟨-, h1, t, rfl⟩ | ⟨pc, -, h1, h2⟩
  · exact hcur.grow hg (by rw [h1])
  · by_cases hp : ∃ f st size, pc = .setFont f st size
    · obtain ⟨f, st, size, rfl⟩ := hp
      obtain ⟨rfl, hfonts⟩ := prepare_setFont h2
      simp only [selectFont]
      rcases step_setFont h1 with ⟨i, a, b, ct, d, g, q1, q2⟩ | ⟨q1, q2⟩
      · rcases pick_find hr f st with ⟨j, a', b', c', d', e', x, r1, r2, r3⟩ | ⟨r1, -⟩
        · rw [q1, Option.some.injEq, Prod.mk.injEq] at r1
          rw [r2]
          intro i' c'' hi''
          rw [q2] at hi''
          simp only [Option.some.injEq, Prod.mk.injEq] at hi''
          obtain ⟨rfl, rfl⟩ := hi''
          rw [← r1.1] at r3
          obtain ⟨l, hl, rfl⟩ := Option.map_eq_some_iff.1 r3.symm
          exact ⟨l, by rw [hfonts]; exact hl, rfl⟩
        · rw [q1] at r1; cases r1
      · rcases pick_find hr f st with ⟨j, a', b', c', d', e', x, r1, r2, r3⟩ | ⟨r1, r2⟩
        · rw [q1] at r1; cases r1
        · rw [r2]
          exact hcur.grow hg (by rw [q2])
    · have hsel : selectFont reg cur c = cur := by
        cases c with
        | other c =>
          simp only [St.prepare] at h2
          split at h2
          · simp only [Option.some.injEq, Prod.mk.injEq] at h2
            obtain ⟨-, rfl⟩ := h2
            cases c <;> first | rfl | exact absurd ⟨_, _, _, rfl⟩ hp
          · cases h2
        | _ => rfl
      rw [hsel]
      exact hcur.grow hg (step_cur h1 (fun f st size e => hp ⟨f, st, size, e⟩))

/-! ### Wishes and codes -/

/-- What is drawn for a wish, with the fonts of a state. -/
def Meets (s : St) (w : Wish) (a : Program.Asked) : Prop :=
  ∃ r ∈ s.prog.doc.relFonts, a.number = r.count + 1 ∧ ∃ l, s.fonts r.index = some l ∧ l.face = w.face ∧ (l.map.val a.char).isSome ∧
    (a.char = w.char ∨ (TTF.glyphOf l.info.font.cmap w.char = .error .notFound ∧ a.char = l.face.subst w.char))

theorem Meets.later {s s' : St} {w : Wish} {a : Program.Asked} (h : Meets s w a) (hg : Grow s.prog.doc s'.prog.doc)
    (hf : FontsGrow s.fonts s'.fonts) : Meets s' w a := by
  obtain ⟨r, r1, r2, l, l1, l2, l3, l4⟩ := h
  obtain ⟨m, m1, m2⟩ := hf _ l l1
  obtain ⟨g, hg'⟩ := Option.isSome_iff_exists.1 l3
  exact ⟨r, hg.fonts.subset r1, r2, _, m1, l2, by rw [m2 _ _ hg']; rfl, l4⟩

/-- What a call asks for. -/
def wishes1 (cur : Option Face) (c : Call) : List Wish := match cur with | some f => (texts c).map fun r => ⟨f, r⟩ | none => []

theorem chars_meet {base : Content.Env} {s s' : St} {cur : Option Face} {t out : List Nat} (hi : Inv base s) (hg : Grow s.prog.doc s'.prog.doc)
    (hu : NoUL s.prog.doc) (hcur : CurOK s cur) (ht : ∀ r ∈ t, Props.IsScalar r) (ha : s.addChars t = some (s'.fonts, out)) (fam : Nat) :
    ∃ f, cur = some f ∧ List.Forall₂ (Meets s') (t.map fun r => (⟨f, r⟩ : Wish)) (out.map fun r => (⟨fam, s.prog.content.cur.font + 1, r⟩ : Program.Asked)) := by
  obtain ⟨i, c, l, hc, hl, ho, hfonts⟩ := addChars_cases ha
  have hnew : s'.fonts i = some { l with map := (TTF.addChars (l.face.source l.info) l.map t).1 } := by
    rw [hfonts]; exact Function.update_self ..
  have good := hi.good i l hl
  obtain ⟨l0, h0, h1⟩ := hcur i c hc
  rw [hl, Option.some.injEq] at h0
  subst h0
  refine ⟨l.face, h1, ?_⟩
  obtain ⟨x, x1, x2, x3⟩ := (Doc.reachable_names hi.res.reach).cur hu i c hc
  obtain ⟨q1, q2⟩ := Props.drawn_chars_in_map good.history ho ht (by
    intro f hf r
    simp only [Face.source, Option.some.injEq] at hf
    subst hf
    exact good.subst r)
  rw [List.forall₂_iff_get]
  refine ⟨by simp [q1], fun j h1 h2 => ?_⟩
  simp only [List.length_map] at h1 h2
  obtain ⟨r', g, a1, a2, a3⟩ := q2 j t[j] (List.getElem?_eq_getElem h1)
  rw [List.getElem?_eq_getElem h2, Option.some.injEq] at a1
  simp only [List.get_eq_getElem, List.getElem_map]
  refine ⟨x, hg.fonts.subset x1, by simp only [hi.res.font i c hc, x3],
    { l with map := (TTF.addChars (l.face.source l.info) l.map t).1 }, by rw [x2]; exact hnew, rfl, ?_, ?_⟩
  · simp only [a1, a2]; rfl
  · simp only [a1]
    rcases a3 with a3 | ⟨a3, f, a4, a5⟩
    · exact .inl a3
    · simp only [Face.source, Option.some.injEq] at a4
      subst a4
      exact .inr ⟨a3, a5⟩

theorem written_other {k : Program.Call} (h : isOther k = true) : Program.written k = [] := by
  cases k <;> first | rfl | simp [isOther] at h

theorem call_meets {base : Content.Env} {s s' : St} {c : Call} {pc : Program.Call} {cur : Option Face} (hi : Inv base s) (hok : c.Ok)
    (h : step base s c = some (s', some pc)) (hcur : CurOK s cur) (hu : NoUL s'.prog.doc) (fam : Nat) :
    List.Forall₂ (Meets s') (wishes1 cur c) ((Program.written pc).map fun r => ⟨fam, s.prog.content.cur.font + 1, r⟩) ∧
      Program.isPage pc = startsPage c := by
  obtain ⟨hi', hg, hx, hf, -⟩ := step_sim hi hok h
  rcases step_inv h with ⟨h0, -⟩ | ⟨pc', h0, h1, h2⟩
  · cases h0
  rw [Option.some.injEq] at h0
  subst h0
  have none' : texts c = [] → Program.written pc = [] → Program.isPage pc = startsPage c →
      List.Forall₂ (Meets s') (wishes1 cur c) ((Program.written pc).map fun r => ⟨fam, s.prog.content.cur.font + 1, r⟩) ∧
      Program.isPage pc = startsPage c := by
    intro a b d
    refine ⟨?_, d⟩
    rw [b]
    cases cur <;> simp [wishes1, a]
  have text : ∀ t out, (∀ r ∈ t, Props.IsScalar r) → s.addChars t = some (s'.fonts, out) → texts c = t → Program.written pc = out →
      Program.isPage pc = startsPage c →
      List.Forall₂ (Meets s') (wishes1 cur c) ((Program.written pc).map fun r => ⟨fam, s.prog.content.cur.font + 1, r⟩) ∧
      Program.isPage pc = startsPage c := by
    intro t out a1 a2 a3 a4 a5
    obtain ⟨f, rfl, q⟩ := chars_meet (s' := s') hi hg (hu.ext hx) hcur a1 a2 fam
    exact ⟨by rw [a4, wishes1, a3]; exact q, a5⟩
  cases c with
  | addFont f st face =>
    simp only [St.prepare] at h2
    split at h2
    · simp only [Option.some.injEq, Prod.mk.injEq] at h2
      obtain ⟨-, rfl⟩ := h2
      exact none' rfl rfl rfl
    · cases h2
    · simp only [Option.some.injEq, Prod.mk.injEq] at h2
      obtain ⟨-, rfl⟩ := h2
      exact none' rfl rfl rfl
  | other k =>
    simp only [St.prepare] at h2
    split at h2
    · next ho =>
      simp only [Option.some.injEq, Prod.mk.injEq] at h2
      obtain ⟨-, rfl⟩ := h2
      exact none' rfl (written_other ho) rfl
    · cases h2
  | measure t =>
    simp only [St.prepare, Option.map_eq_some_iff] at h2
    obtain ⟨_, _, he⟩ := h2
    simp at he
  | text t =>
    simp only [St.prepare, Option.map_eq_some_iff] at h2
    obtain ⟨⟨fonts', out⟩, ha, he⟩ := h2
    simp only [Prod.mk.injEq, Option.some.injEq] at he
    obtain ⟨he, rfl⟩ := he
    exact text t out hok (by rw [ha, he]) rfl rfl rfl
  | cell r t =>
    simp only [St.prepare, Option.map_eq_some_iff] at h2
    obtain ⟨⟨fonts', out⟩, ha, he⟩ := h2
    simp only [Prod.mk.injEq, Option.some.injEq] at he
    obtain ⟨he, rfl⟩ := he
    exact text t out hok (by rw [ha, he]) rfl rfl rfl
  | cellWithOption r t opt tr =>
    simp only [St.prepare, Option.map_eq_some_iff] at h2
    obtain ⟨⟨fonts', out⟩, ha, he⟩ := h2
    simp only [Prod.mk.injEq, Option.some.injEq] at he
    obtain ⟨he, rfl⟩ := he
    exact text t out hok (by rw [ha, he]) rfl rfl rfl

/-- The characters asked for, font by font, are what the caller wished. -/
theorem wishes_asked {base : Content.Env} (k : Nat) : ∀ (prog : List Call) (n fam : Nat) (reg : Registered) (cur : Option Face) (s s' : St) (calls : List Program.Call),
    Inv base s → (∀ c ∈ prog, c.Ok) → RegOK s reg → CurOK s cur → steps base s prog = some (s', calls) → NoUL s'.prog.doc →
    ∀ e', Covers base s' e' → List.Forall₂ (Meets s') (wishes k n reg cur prog) (Program.asked e' k fam n s.prog calls)
  | [], n, fam, reg, cur, s, s', calls, hi, _, _, _, h, _, e', _ => by
    simp only [steps, Option.some.injEq, Prod.mk.injEq] at h
    obtain ⟨rfl, rfl⟩ := h
    exact .nil
  | c :: prog, n, fam, reg, cur, s, s', calls, hi, hok, hr, hcur, h, hu, e', he => by
    obtain ⟨s1, pk, calls', h1, h2, rfl⟩ := steps_cons h
    have hok1 := hok c (by simp)
    have hok2 : ∀ x ∈ prog, x.Ok := fun x hx => hok x (by simp [hx])
    obtain ⟨a1, a2, a3, a4, a5⟩ := step_sim hi hok1 h1
    obtain ⟨b1, b2, b3, b4, b5⟩ := steps_sim prog s1 s' calls' a1 hok2 h2
    have hu1 := hu.ext b3
    have hrun := a5 hu1 e' (he.back b2 b4)
    have ih := fun n fam => wishes_asked k prog n fam _ _ s1 s' calls' a1 hok2 (step_reg hi hok1 h1 hr) (step_select hi hok1 h1 hr hcur) h2 hu e' he
    cases pk with
    | none =>
      rcases step_inv h1 with ⟨-, e1, t, rfl⟩ | ⟨pc, e1, -⟩
      · have := ih n fam
        rw [e1] at this
        cases cur <;> simpa [wishes, texts, startsPage] using this
      · cases e1
    | some pc =>
      obtain ⟨m1, m2⟩ := call_meets hi hok1 h1 hcur hu1 fam
      have hrun : Program.step e' s.prog pc = some s1.prog := by
        simp only [Option.toList, Program.steps] at hrun
        cases hs : Program.step e' s.prog pc with
        | none => rw [hs] at hrun; simp at hrun
        | some x => rw [hs] at hrun; simpa using hrun
      simp only [Option.toList, List.cons_append, List.nil_append, Program.asked, hrun, wishes, ← m2]
      refine List.rel_append ?_ (ih _ _)
      split
      · have hm : ∀ {a b}, List.Forall₂ (Meets s1) a b → List.Forall₂ (Meets s') a b := fun h => h.imp fun _ _ hm => hm.later b2 b4
        exact hm m1
      · exact .nil

/-! ### Fonts come from the caller -/

theorem reg_final {base : Content.Env} : ∀ (prog : List Call) (reg : Registered) (s s' : St) (calls : List Program.Call),
    Inv base s → (∀ c ∈ prog, c.Ok) → RegOK s reg → steps base s prog = some (s', calls) → RegOK s' (prog.foldl registerFont reg)
  | [], reg, s, s', calls, hi, _, hr, h => by
    simp only [steps, Option.some.injEq, Prod.mk.injEq] at h
    obtain ⟨rfl, rfl⟩ := h
    exact hr
  | c :: prog, reg, s, s', calls, hi, hok, hr, h => by
    obtain ⟨s1, pk, calls', h1, h2, rfl⟩ := steps_cons h
    have hok1 := hok c (by simp)
    exact reg_final prog _ s1 s' calls' (step_sim hi hok1 h1).1 (fun x hx => hok x (by simp [hx])) (step_reg hi hok1 h1 hr) h2

theorem reg_mem : ∀ (prog : List Call) (reg : Registered) (x : Nat × Nat × Face), x ∈ prog.foldl registerFont reg →
    x ∈ reg ∨ (Call.addFont x.1 x.2.1 x.2.2 ∈ prog ∧ accepted x.2.2 = true)
  | [], reg, x, h => .inl h
  | c :: prog, reg, x, h => by
    rcases reg_mem prog _ x h with h1 | ⟨h1, h2⟩
    · cases c with
      | addFont f st face =>
        simp only [registerFont] at h1
        split at h1
        · next ha =>
          rcases List.mem_append.1 h1 with h1 | h1
          · exact .inl h1
          · rw [List.mem_singleton] at h1
            subst h1
            exact .inr ⟨by simp, ha⟩
        · exact .inl h1
      | _ => exact .inl h1
    · exact .inr ⟨by simp [h1], h2⟩

theorem mem_regOf {fonts : Nat → Option Loaded} : ∀ (l : List Obj) (i j : Nat) {f st c cid u : Nat}, l[j]? = some (.font f st c cid u) →
    (f, st, (fonts (i + j)).map (·.face)) ∈ regOf fonts i l
  | [], i, j, _, _, _, _, _, h => by simp at h
  | o :: l, i, 0, _, _, _, _, _, h => by
    simp only [List.getElem?_cons_zero, Option.some.injEq] at h
    subst h
    simp [regOf]
  | o :: l, i, j + 1, _, _, _, _, _, h => by
    have ih := mem_regOf (fonts := fonts) l (i + 1) j (by simpa using h)
    rw [show i + 1 + j = i + (j + 1) by omega] at ih
    cases ho : isFontObj o
    · rw [regOf_other ho]; exact ih
    · cases o <;> first | (simp only [regOf]; exact List.mem_cons_of_mem _ ih) | simp [isFontObj] at ho

/-- A font object stands for a font the caller added. -/
theorem font_given {s : St} {prog : List Call} (h : RegOK s (prog.foldl registerFont [])) {i f st c cid u : Nat}
    (hi : s.prog.doc.idents[i]? = some (.font f st c cid u)) : ∃ face, Call.addFont f st face ∈ prog ∧ accepted face = true ∧
      (s.fonts i).map (·.face) = some face := by
  have hm := mem_regOf (fonts := s.fonts) _ 0 i hi
  unfold RegOK at h
  rw [h, Nat.zero_add] at hm
  obtain ⟨x, hx, he⟩ := List.mem_map.1 hm
  simp only [Prod.mk.injEq] at he
  obtain ⟨rfl, rfl, he⟩ := he
  rcases reg_mem prog [] x hx with h1 | ⟨h1, h2⟩
  · simp at h1
  · exact ⟨x.2.2, h1, h2, he.symm⟩

theorem prepare_page {s : St} {c : Call} {fonts : Nat → Option Loaded} {pc : Program.Call} (h2 : s.prepare c = some (fonts, some pc)) :
    Program.isPage pc = startsPage c := by
  cases c with
  | addFont f st face =>
    simp only [St.prepare] at h2
    split at h2 <;> simp only [Option.some.injEq, Prod.mk.injEq, reduceCtorEq] at h2
    all_goals obtain ⟨-, rfl⟩ := h2; rfl
  | other k =>
    simp only [St.prepare] at h2
    split at h2 <;> simp only [Option.some.injEq, Prod.mk.injEq, reduceCtorEq] at h2
    obtain ⟨-, rfl⟩ := h2; rfl
  | measure t =>
    simp only [St.prepare, Option.map_eq_some_iff] at h2
    obtain ⟨_, _, he⟩ := h2
    simp at he
  | _ =>
    simp only [St.prepare, Option.map_eq_some_iff] at h2
    obtain ⟨_, _, he⟩ := h2
    simp only [Prod.mk.injEq, Option.some.injEq] at he
    obtain ⟨-, rfl⟩ := he
    rfl

theorem count_pages {base : Content.Env} : ∀ (prog : List Call) (s s' : St) (calls : List Program.Call),
    steps base s prog = some (s', calls) → calls.countP Program.isPage = prog.countP startsPage
  | [], s, s', calls, h => by
    simp only [steps, Option.some.injEq, Prod.mk.injEq] at h
    obtain ⟨rfl, rfl⟩ := h
    rfl
  | c :: prog, s, s', calls, h => by
    obtain ⟨s1, pk, calls', h1, h2, rfl⟩ := steps_cons h
    have ih := count_pages prog s1 s' calls' h2
    rcases step_inv h1 with ⟨rfl, -, t, rfl⟩ | ⟨pc, rfl, -, h3⟩
    · simpa [startsPage] using ih
    · simp only [Option.toList, List.cons_append, List.nil_append, List.countP_cons, ih, prepare_page h3]

theorem reg_start (prot : Bool) (ml mt : ℚ) : RegOK (start prot ml mt) [] := by
  cases prot <;> rfl

theorem cur_start (prot : Bool) (ml mt : ℚ) : CurOK (start prot ml mt) none := by
  intro i c h
  cases prot <;> simp [start, Program.start, Doc.start] at h

end Verif.Typeset
