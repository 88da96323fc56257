import Verif.Lemmas.Program.Inked
import Verif.Props.Align
import Verif.Props.TextLook
import Verif.Lemmas.Layout.Log
/- Where text is put after SetXY. -/
set_option maxRecDepth 10000
namespace Verif.Content
open Units (toPoints)

/-- The calls that write text: cell or not, rectangle, alignment, text. -/
inductive TextCall : Call → Bool → Option Units.Rect → Nat → List Nat → Prop
  | text {t : List Nat} : TextCall (.text t) false none 0 t
  | cell {r : Option Units.Rect} {t : List Nat} : TextCall (.cell r t) true r 12 t
  | cellWithOption {r : Option Units.Rect} {t : List Nat} {o : CellOption} {tr : Option (Option Nat)} : TextCall (.cellWithOption r t o tr) true r o.align t

/-- Text written after SetXY is an item of its own. -/
theorem fresh_item {e : Env} {s s1 s' : St} {x y : ℚ} {c : Call} {cell : Bool} {rect : Option Units.Rect} {align : Nat} {text : List Nat}
    (hm : ∀ p ∈ s.pages, ∀ t, Item.text t ∈ p → t.setXCount ≤ s.cur.setXCount) (hp : s.page < s.pages.length)
    (h1 : step e s (.setXY x y) = some s1) (h2 : step e s1 c = some s') (hc : TextCall c cell rect align text) :
    ∃ t, s'.pages.getD s.page [] = s.pages.getD s.page [] ++ [.text t] ∧ Props.Measured e t ∧ t.x = toPoints e.cfg x ∧ t.y = toPoints e.cfg y ∧
      t.isCell = cell ∧ t.opt.align = align ∧ t.font = s.cur.font + 1 ∧ t.fontSize = s.cur.fontSize ∧ t.charSpacing = s.cur.charSpacing ∧
      t.text = text ∧ t.rectangle = rectPoints e rect ∧ t.pageHeight = s.cur.pageHeight := by
  simp only [step, Option.some.injEq] at h1
  subst h1
  have hfresh := Props.fresh_after_set (e := e) (s := { s with cur := { s.cur with x := toPoints e.cfg x, y := toPoints e.cfg y, setXCount := s.cur.setXCount + 1 } })
    (fun p hpm t ht => Nat.lt_succ_of_le (hm p hpm t ht))
  have main : ∀ (opt : CellOption), opt.align = align →
      ({ s with cur := { s.cur with x := toPoints e.cfg x, y := toPoints e.cfg y, setXCount := s.cur.setXCount + 1 } } : St).addText e
        (newText { s.cur with x := toPoints e.cfg x, y := toPoints e.cfg y, setXCount := s.cur.setXCount + 1 } cell (rectPoints e rect) opt) text = some s' →
      ∃ t, s'.pages.getD s.page [] = s.pages.getD s.page [] ++ [.text t] ∧ Props.Measured e t ∧ t.x = toPoints e.cfg x ∧ t.y = toPoints e.cfg y ∧
      t.isCell = cell ∧ t.opt.align = align ∧ t.font = s.cur.font + 1 ∧ t.fontSize = s.cur.fontSize ∧ t.charSpacing = s.cur.charSpacing ∧
      t.text = text ∧ t.rectangle = rectPoints e rect ∧ t.pageHeight = s.cur.pageHeight := by
    intro opt ho hadd
    unfold St.addText at hadd
    split at hadd
    · exact absurd hadd (by simp)
    next items xx yy hap =>
    obtain rfl := Option.some.inj hadd
    obtain ⟨pre, c', t, hcase, hx, rfl, -, -⟩ := append_cases hap
    have hj := hfresh (newText { s.cur with x := toPoints e.cfg x, y := toPoints e.cfg y, setXCount := s.cur.setXCount + 1 } cell (rectPoints e rect) opt) rfl
    rcases hcase with ⟨hpre, hs⟩ | ⟨hpre, rfl, -⟩
    · rw [hpre] at hj; simp [joinTarget, hs] at hj
    refine ⟨t, ?_, Props.extend_measured hx, ?_⟩
    · simp only at hpre ⊢
      rw [getD_set _ _ _ _ hp, if_pos rfl, ← hpre]
    · unfold extend at hx
      obtain ⟨q, hq, rfl⟩ := Option.map_eq_some_iff.1 hx
      exact ⟨rfl, rfl, rfl, ho, rfl, rfl, rfl, by simp [newText], rfl, rfl⟩
  cases hc with
  | text => exact main {} rfl h2
  | cell => exact main _ rfl h2
  | @cellWithOption r t o tr =>
    exact main { o with ext := o.ext ++ transOf { s with cur := { s.cur with x := toPoints e.cfg x, y := toPoints e.cfg y, setXCount := s.cur.setXCount + 1 } } tr } rfl h2

end Verif.Content

namespace Verif.Program
open Doc (NoUL)

def heightAfter : Call → ℚ → ℚ
  | .addPage h, _ => h
  | _, old => old

theorem height_plain {e : Content.Env} {s s' : Content.St} {c : Content.Call} (h : Content.step e s c = some s') :
    s'.cur.pageHeight = heightAfter (match c with | .addPage h => .addPage h | c => .plain c) s.cur.pageHeight := by
  cases c with
  | setPage n => simp only [Content.step, Option.some.injEq] at h; subst h; split <;> rfl
  | text t => obtain ⟨x, y, hx⟩ := Content.addText_cur h; rw [hx]; rfl
  | cell r t => obtain ⟨x, y, hx⟩ := Content.addText_cur h; rw [hx]; rfl
  | cellWithOption r t o tr => obtain ⟨x, y, hx⟩ := Content.addText_cur h; rw [hx]; rfl
  | _ => simp only [Content.step, Option.some.injEq] at h; subst h; rfl

theorem step_height {s s' : St} {e : Content.Env} {pc : Call} (h : step e s pc = some s') :
    s'.content.cur.pageHeight = heightAfter pc s.content.cur.pageHeight := by
  have pen : ∀ d en k o, docOp s.next pc = some o → contentCall d en pc = some k → Content.step e s.content k = some s'.content →
      s'.content.cur.pageHeight = heightAfter pc s.content.cur.pageHeight := by
    intro d en k o ho hk hs
    have := height_plain hs
    cases pc with
    | plain c =>
      simp only [contentCall, Option.some.injEq] at hk
      subst hk
      cases c <;> first | exact this | simp [docOp, plainCall] at ho
    | object op => simp [contentCall] at hk
    | setColourSpace n => simp only [contentCall, Option.map_eq_some_iff] at hk; obtain ⟨_, _, rfl⟩ := hk; exact this
    | image i j => simp only [contentCall, Option.map_eq_some_iff] at hk; obtain ⟨_, _, rfl⟩ := hk; exact this
    | imageOpt i j t m => simp only [contentCall, Option.map_eq_some_iff] at hk; obtain ⟨_, _, rfl⟩ := hk; exact this
    | _ => simp only [contentCall, Option.some.injEq] at hk; subst hk; exact this
  have same : ∀ op, docOp s.next pc = some (some op) → op ≠ .addPage → s'.content = s.content → s'.content.cur.pageHeight = heightAfter pc s.content.cur.pageHeight := by
    intro op ho hne hs
    rw [hs]
    cases pc with
    | addPage h => simp only [docOp, Option.some.injEq] at ho; exact absurd ho.symm hne
    | _ => rfl
  cases step_made h with
  | pen a1 k a2 a3 a4 a5 => exact pen _ _ _ _ a1 a2 a4
  | err op a1 a2 a3 => exact same op a1 (by rintro rfl; simp [Doc.step] at a2) a3
  | quiet op a1 a2 a3 a4 =>
    refine same op a1 ?_ a4
    rintro rfl
    cases pc with
    | addPage h => simp [contentCall] at a3
    | plain c => simp only [docOp, Option.map_eq_some_iff, Option.some.injEq] at a1; obtain ⟨b, _, hb⟩ := a1; cases b <;> simp at hb
    | object op => simp only [docOp] at a1; split at a1 <;> simp at a1; subst a1; simp [objectOp] at *
    | _ => simp [docOp] at a1
  | both op a1 a2 k a3 a4 => exact pen _ _ _ _ a1 a3 a4

end Verif.Program

namespace Verif.Program

theorem steps_page {e : Content.Env} : ∀ (calls : List Call) (s s' : St), steps e s calls = some s' → s.content.page + 1 = s.content.pages.length →
    s'.content.page + 1 = s'.content.pages.length ∧ s'.content.page = s.content.page + calls.countP isPage
  | [], s, s', h, hp => by
    simp only [steps, Option.some.injEq] at h
    subst h; exact ⟨hp, rfl⟩
  | c :: calls, s, s', h, hp => by
    obtain ⟨s1, h1, h2⟩ := Option.bind_eq_some_iff.1 h
    obtain ⟨a, b⟩ := step_page h1 hp
    obtain ⟨a', b'⟩ := steps_page calls s1 s' h2 a
    refine ⟨a', ?_⟩
    rw [b', b, List.countP_cons]
    split <;> simp_all <;> omega

end Verif.Program

namespace Verif.Typeset
open Doc (NoUL)
open Units (toPoints)

theorem step_height {base : Content.Env} {s s' : St} {c : Call} {k : Option Program.Call} {x : ℚ} (h : step base s c = some (s', k))
    (hc : s.prog.content.cur.pageHeight = x) : s'.prog.content.cur.pageHeight = heightAfter x c := by
  rcases step_inv h with ⟨-, h1, t, rfl⟩ | ⟨pc, -, h1, h2⟩
  · rw [h1]; exact hc
  · rw [Program.step_height h1, hc]
    cases c with
    | addFont f st face =>
      simp only [St.prepare] at h2
      split at h2 <;> simp only [Option.some.injEq, Prod.mk.injEq, reduceCtorEq] at h2
      all_goals
        obtain ⟨-, rfl⟩ := h2
        rfl
    | measure t =>
      simp only [St.prepare, Option.map_eq_some_iff] at h2
      obtain ⟨_, _, he⟩ := h2
      simp at he
    | other k =>
      simp only [St.prepare] at h2
      split at h2
      · simp only [Option.some.injEq, Prod.mk.injEq] at h2
        obtain ⟨-, rfl⟩ := h2
        cases k <;> rfl
      · cases h2
    | _ =>
      simp only [St.prepare, Option.map_eq_some_iff] at h2
      obtain ⟨_, _, he⟩ := h2
      simp only [Prod.mk.injEq, Option.some.injEq] at he
      obtain ⟨-, rfl⟩ := he
      rfl

theorem steps_height {base : Content.Env} : ∀ (prog : List Call) (s s' : St) (calls : List Program.Call) (x : ℚ), steps base s prog = some (s', calls) →
    s.prog.content.cur.pageHeight = x → s'.prog.content.cur.pageHeight = prog.foldl heightAfter x
  | [], s, s', calls, x, h, hx => by
    simp only [steps, Option.some.injEq, Prod.mk.injEq] at h
    obtain ⟨rfl, rfl⟩ := h
    exact hx
  | c :: prog, s, s', calls, x, h, hx => by
    obtain ⟨s1, pk, calls', h1, h2, rfl⟩ := steps_cons h
    exact steps_height prog s1 s' calls' _ h2 (step_height h1 hx)

/-- The calls that write text: cell or not, rectangle, alignment. -/
inductive TextCall : Call → Bool → Option Units.Rect → Nat → Prop
  | text {t : List Nat} : TextCall (.text t) false none 0
  | cell {r : Option Units.Rect} {t : List Nat} : TextCall (.cell r t) true r 12
  | cellWithOption {r : Option Units.Rect} {t : List Nat} {o : Content.CellOption} {tr : Option Doc.Tr} : TextCall (.cellWithOption r t o tr) true r o.align

theorem text_content {e' : Content.Env} {s : St} {p' : Program.St} {c : Call} {fonts : Nat → Option Loaded} {pc : Program.Call} (hc : s.prepare c = some (fonts, some pc))
    (hne : texts c ≠ []) (hw : Program.written pc ≠ []) (hs : Program.step e' s.prog pc = some p') :
    ∃ x cell rect align, Content.step e' s.prog.content x = some p'.content ∧ Content.TextCall x cell rect align (Program.written pc) ∧ TextCall c cell rect align := by
  obtain ⟨d, en, x, h1, h2⟩ : ∃ d en x, Program.contentCall d en pc = some x ∧ Content.step e' s.prog.content x = some p'.content := by
    cases Program.step_made hs with
    | pen a1 x a2 a3 a4 a5 => exact ⟨_, _, x, a2, a4⟩
    | err op a1 a2 a3 a5 => exact absurd (Program.no_text a1 a2) hw
    | quiet op a1 a2 a3 a4 a5 => exact absurd (Program.quiet_text a3) hw
    | both op a1 a2 x a3 a4 a5 => exact ⟨_, _, x, a3, a4⟩
  cases c with
  | text t =>
    simp only [St.prepare, Option.map_eq_some_iff, Prod.mk.injEq, Option.some.injEq] at hc
    obtain ⟨p, -, -, rfl⟩ := hc
    simp only [Program.contentCall, Option.some.injEq] at h1
    subst h1
    exact ⟨_, _, _, _, h2, .text, .text⟩
  | cell r t =>
    simp only [St.prepare, Option.map_eq_some_iff, Prod.mk.injEq, Option.some.injEq] at hc
    obtain ⟨p, -, -, rfl⟩ := hc
    simp only [Program.contentCall, Option.some.injEq] at h1
    subst h1
    exact ⟨_, _, _, _, h2, .cell, .cell⟩
  | cellWithOption r t o tr =>
    simp only [St.prepare, Option.map_eq_some_iff, Prod.mk.injEq, Option.some.injEq] at hc
    obtain ⟨p, -, -, rfl⟩ := hc
    simp only [Program.contentCall, Option.some.injEq] at h1
    subst h1
    exact ⟨_, _, _, _, h2, .cellWithOption, .cellWithOption⟩
  | _ => exact absurd rfl hne

/-- An item that was made for a call is where it should be. -/
theorem item_placed {e' : Content.Env} {c : Call} {cell : Bool} {rect : Option Units.Rect} {t : Content.TextItem} (hm : Props.Measured e' t)
    (hc : TextCall c cell rect t.opt.align) (hcell : t.isCell = cell) (hr : t.rectangle = Content.rectPoints e' rect) :
    Placed e'.cfg (t.x, t.pageHeight - t.y) t.textWidth (Content.typo (e'.fonts t.font).typoAscender (e'.fonts t.font) t.fontSize)
      (Content.typo (e'.fonts t.font).typoDescender (e'.fonts t.font) t.fontSize) c (Content.startOf e' t) := by
  rw [Content.measured_start hm]
  generalize hA : t.opt.align = align at hc
  obtain ⟨q, hq, q1, q2, q3⟩ := hm.ok
  cases hc with
  | text => simp [Placed, Content.calX, Content.calY, hcell]
  | cell =>
    simp only [Placed, Content.calX, Content.calY, hcell, hA]
    simp [Content.has, Content.right, Content.center, Content.bottom, Content.middle]
  | @cellWithOption r tx o tr =>
    cases rect with
    | none =>
      rw [hr] at hq
      unfold Content.createContent at hq
      split at hq
      · exact absurd hq (by simp)
      · simp only [Content.rectPoints, Option.map_none, Option.some.injEq] at hq
        subst hq
        simp only [Placed, Prod.mk.injEq]
        constructor
        · simp only [Content.calX, hcell, q1, q3]
          split
          · split
            · ring
            · split
              · ring
              · rfl
          · rfl
        · simp only [Content.calY, hcell, q2, if_true]
          split
          · ring
          · split
            · ring
            · ring
    | some r =>
      have hwh : q.1 = (r.toPointsT e'.cfg.unit).w ∧ q.2.1 = (r.toPointsT e'.cfg.unit).h := by
        rw [hr] at hq
        unfold Content.createContent at hq
        split at hq
        · exact absurd hq (by simp)
        · simp only [Content.rectPoints, Option.map_some, Option.some.injEq] at hq
          subst hq
          exact ⟨rfl, rfl⟩
      simp only [Placed]
      rw [← hwh.1, ← hwh.2, ← q1, ← q2, ← hA]
      refine ⟨fun ha => ?_, fun ha hb => ?_, fun ha hb => ?_, fun ha => ?_, fun ha hb => ?_, fun ha hb => ?_⟩
      · simp only [Content.calX, hcell, Content.has, Content.right, ha]; simp
      · simp only [Content.calX, hcell, Content.has, Content.right, Content.center, hb]; simp [ha]; ring
      · simp [Content.calX, hcell, Content.has, Content.right, Content.center, ha, hb]
      · simp only [Content.calY, hcell, Content.has, Content.bottom, ha]; simp
      · have hcy : Content.calY e' t = t.pageHeight - t.y - t.cellHeight / 2 - (Content.typo (e'.fonts t.font).typoDescender (e'.fonts t.font) t.fontSize +
            Content.typo (e'.fonts t.font).typoAscender (e'.fonts t.font) t.fontSize) / 2 := by
          unfold Content.calY; simp only [hcell, Content.has, Content.bottom, Content.middle, beq_iff_eq, ha, hb]; simp
        rw [hcy]; ring
      · have hcy : Content.calY e' t = t.pageHeight - t.y - Content.typo (e'.fonts t.font).typoAscender (e'.fonts t.font) t.fontSize := by
          unfold Content.calY; simp only [hcell, Content.has, Content.bottom, Content.middle, beq_iff_eq, ha, hb]; simp
        rw [hcy]; ring

end Verif.Typeset
