import Verif.Lemmas.Program.Spell
import Verif.Props.TypesetMeasure
/- The style of the characters a program writes. -/
set_option maxRecDepth 10000
namespace Verif.Program
open Doc (NoUL)

theorem step_signs {e : Content.Env} {s s' : St} {c : Call} (hs : step e s c = some s') (hp : s.content.page < s.content.pages.length) (k : Nat) :
    ∃ new, Content.signsOf e (s'.content.pages.getD k []) = Content.signsOf e (s.content.pages.getD k []) ++ new ∧
      new.map (fun x => (x.style, x.char)) =
        if s.content.page = k then (written c).map fun r => (Content.curStyle s.content.cur, r) else [] := by
  have one : ∀ (n : Nat) (o : Option Doc.Op) (_ : docOp n c = some o) (d : Doc.Doc) (en : Doc.Entry) (x : Content.Call)
      (_ : contentCall d en c = some x) (_ : Content.step e s.content x = some s'.content),
      ∃ new, Content.signsOf e (s'.content.pages.getD k []) = Content.signsOf e (s.content.pages.getD k []) ++ new ∧
      new.map (fun x => (x.style, x.char)) =
        if s.content.page = k then (written c).map fun r => (Content.curStyle s.content.cur, r) else [] := by
    intro n o h1 d en x h2 h3
    have := Content.step_signs h3 hp k
    rwa [written_call h1 h2] at this
  cases step_made hs with
  | pen a1 x a2 a3 a4 a5 => exact one _ _ a1 _ _ x a2 a4
  | err op a1 a2 a3 a5 => exact ⟨[], by rw [a3]; simp, by rw [no_text a1 a2]; simp⟩
  | quiet op a1 a2 a3 a4 a5 => exact ⟨[], by rw [a4]; simp, by rw [quiet_text a3]; simp⟩
  | both op a1 a2 x a3 a4 a5 => exact one _ _ a1 _ _ x a3 a4

/-- The text colour after a call. -/
def colourAfter : Call → Option Paint.Colour → Option Paint.Colour
  | .plain (.setTextColour (.rgb r g b)), _ => some (.rgb (r / 255) (g / 255) (b / 255))
  | .plain (.setTextColour (.cmyk c m y k)), _ => some (.cmyk (c / 100) (m / 100) (y / 100) (k / 100))
  | _, old => old

def colourOf (s : St) : Option Paint.Colour := s.content.cur.colour.map (·.colour)

theorem colour_plain {e : Content.Env} {s s' : Content.St} {c : Content.Call} (h : Content.step e s c = some s') :
    s'.cur.colour.map (·.colour) = colourAfter (.plain c) (s.cur.colour.map (·.colour)) := by
  have hs := Content.step_style h
  have := congrArg Drawing.Style.colour hs
  cases c with
  | setTextColour c => cases c <;> simpa [Drawing.Style.after, Content.curStyle, colourAfter] using this
  | _ => exact this

theorem step_colour {s s' : St} {e : Content.Env} {pc : Call} (h : step e s pc = some s') : colourOf s' = colourAfter pc (colourOf s) := by
  have pen : ∀ d en k o, docOp s.next pc = some o → contentCall d en pc = some k → Content.step e s.content k = some s'.content →
      colourOf s' = colourAfter pc (colourOf s) := by
    intro d en k o ho hk hs
    have := colour_plain hs
    cases pc with
    | plain c =>
      simp only [contentCall, Option.some.injEq] at hk
      subst hk
      exact this
    | object op => simp [contentCall] at hk
    | setColourSpace n => simp only [contentCall, Option.map_eq_some_iff] at hk; obtain ⟨_, _, rfl⟩ := hk; exact this
    | image i j => simp only [contentCall, Option.map_eq_some_iff] at hk; obtain ⟨_, _, rfl⟩ := hk; exact this
    | imageOpt i j t m => simp only [contentCall, Option.map_eq_some_iff] at hk; obtain ⟨_, _, rfl⟩ := hk; exact this
    | _ => simp only [contentCall, Option.some.injEq] at hk; subst hk; exact this
  have same : ∀ op, docOp s.next pc = some (some op) → s'.content = s.content → colourOf s' = colourAfter pc (colourOf s) := by
    intro op ho hs
    unfold colourOf
    rw [hs]
    cases pc with
    | plain c => cases c <;> first | rfl | simp [docOp, plainCall] at ho
    | _ => rfl
  cases step_made h with
  | pen a1 k a2 a3 a4 a5 => exact pen _ _ _ _ a1 a2 a4
  | err op a1 a2 a3 => exact same op a1 a3
  | quiet op a1 a2 a3 a4 => exact same op a1 a4
  | both op a1 a2 k a3 a4 => exact pen _ _ _ _ a1 a3 a4

end Verif.Program

namespace Verif.Typeset
open Doc (NoUL)

theorem step_ink {base : Content.Env} {s s' : St} {c : Call} {k : Option Program.Call} {col : Option Paint.Colour} (h : step base s c = some (s', k))
    (hc : Program.colourOf s.prog = col) : Program.colourOf s'.prog = inkAfter col c := by
  rcases step_inv h with ⟨-, h1, t, rfl⟩ | ⟨pc, -, h1, h2⟩
  · rw [h1]; exact hc
  · rw [Program.step_colour h1, hc]
    cases c with
    | addFont f st face =>
      simp only [St.prepare] at h2
      split at h2 <;> simp only [Option.some.injEq, Prod.mk.injEq, reduceCtorEq] at h2
      all_goals
        obtain ⟨-, rfl⟩ := h2
        rfl
    | measure t =>
      simp only [St.prepare, Option.map_eq_some_iff] at h2
      obtain ⟨_, _, he⟩ := h2
      simp at he
    | other k =>
      simp only [St.prepare] at h2
      split at h2
      · simp only [Option.some.injEq, Prod.mk.injEq] at h2
        obtain ⟨-, rfl⟩ := h2
        cases k with
        | plain k =>
          cases k with
          | setTextColour c => cases c <;> rfl
          | _ => rfl
        | _ => rfl
      · cases h2
    | _ =>
      simp only [St.prepare, Option.map_eq_some_iff] at h2
      obtain ⟨_, _, he⟩ := h2
      simp only [Prod.mk.injEq, Option.some.injEq] at he
      obtain ⟨-, rfl⟩ := he
      rfl

/-- A character of a page has the style asked for. -/
def StyledAs (cfg : Units.Cfg) (i : Ink) (x : Content.Sign) : Prop :=
  x.style.size = i.size ∧ x.style.spacing = Units.toPoints cfg i.spacing ∧ x.style.colour = i.colour

theorem inked_signs {base : Content.Env} (k : Nat) : ∀ (prog : List Call) (x : Setting) (col : Option Paint.Colour) (s s' : St) (calls : List Program.Call),
    Inv base s → (∀ c ∈ prog, c.Ok) → RegOK s x.reg → CurOK s x.face → SizeOK base.cfg s x → Program.colourOf s.prog = col →
    s.prog.content.page + 1 = s.prog.content.pages.length → steps base s prog = some (s', calls) → NoUL s'.prog.doc →
    ∀ e', Covers base s' e' → ∃ new, Content.signsOf e' (s'.prog.content.pages.getD k []) = Content.signsOf e' (s.prog.content.pages.getD k []) ++ new ∧
      List.Forall₂ (StyledAs base.cfg) (inked k s.prog.content.page x col prog) new
  | [], x, col, s, s', calls, hi, _, _, _, _, _, _, h, _, e', _ => by
    simp only [steps, Option.some.injEq, Prod.mk.injEq] at h
    obtain ⟨rfl, rfl⟩ := h
    exact ⟨[], by simp, .nil⟩
  | c :: prog, x, col, s, s', calls, hi, hok, hr, hcur, hsz, hcol, hp, h, hu, e', he => by
    obtain ⟨s1, pk, calls', h1, h2, rfl⟩ := steps_cons h
    have hok1 := hok c (by simp)
    have hok2 : ∀ x ∈ prog, x.Ok := fun x hx => hok x (by simp [hx])
    obtain ⟨a1, a2, a3, a4, a5⟩ := step_sim hi hok1 h1
    obtain ⟨b1, b2, b3, b4, b5⟩ := steps_sim prog s1 s' calls' a1 hok2 h2
    have hu1 := hu.ext b3
    have hrun := a5 hu1 e' (he.back b2 b4)
    have ih := fun hp' => inked_signs k prog (x.after c) (inkAfter col c) s1 s' calls' a1 hok2 (step_reg hi hok1 h1 hr) (step_select hi hok1 h1 hr hcur)
      (step_size h1 hr hsz) (step_ink h1 hcol) hp' h2 hu e' he
    cases pk with
    | none =>
      rcases step_inv h1 with ⟨-, e1, t, rfl⟩ | ⟨pc, e1, -⟩
      · have := ih (by rw [e1]; exact hp)
        rw [e1] at this
        cases hf : x.face <;> simpa [inked, texts, startsPage, hf] using this
      · cases e1
    | some pc =>
      obtain ⟨m1, m2⟩ := call_meets hi hok1 h1 hcur hu1 0
      have hrun : Program.step e' s.prog pc = some s1.prog := by
        simp only [Option.toList, Program.steps] at hrun
        cases hs : Program.step e' s.prog pc with
        | none => rw [hs] at hrun; simp at hrun
        | some x => rw [hs] at hrun; simpa using hrun
      obtain ⟨p1, p2⟩ := Program.step_page hrun hp
      obtain ⟨new1, n1, n2⟩ := Program.step_signs hrun (by omega) k
      obtain ⟨new2, q1, q2⟩ := ih p1
      refine ⟨new1 ++ new2, by rw [q1, n1, List.append_assoc], ?_⟩
      rw [p2, m2] at q2
      simp only [inked]
      refine List.rel_append ?_ q2
      have hlen := m1.length_eq
      by_cases hk : s.prog.content.page = k
      · rw [if_pos hk] at n2 ⊢
        have hl1 : new1.length = (Program.written pc).length := by simpa using congrArg List.length n2
        cases hf : x.face with
        | none =>
          rw [hf] at hlen
          simp only [wishes1, List.length_nil, List.length_map] at hlen
          obtain rfl : new1 = [] := List.length_eq_zero_iff.1 (by omega)
          exact .nil
        | some f =>
          rw [hf] at hlen
          simp only [wishes1, List.length_map] at hlen
          rw [List.forall₂_iff_get]
          refine ⟨by simp; omega, fun j h1 h2 => ?_⟩
          have hj : (new1.map fun x => (x.style, x.char))[j]? = ((Program.written pc).map fun r => (Content.curStyle s.prog.content.cur, r))[j]? := by rw [n2]
          rw [List.getElem?_map, List.getElem?_map, List.getElem?_eq_getElem h2, List.getElem?_eq_getElem (by omega)] at hj
          simp only [Option.map_some, Option.some.injEq, Prod.mk.injEq] at hj
          simp only [List.get_eq_getElem, List.getElem_map]
          refine ⟨?_, ?_, ?_⟩
          · simp only [hj.1, Content.curStyle]; exact hsz.1
          · simp only [hj.1, Content.curStyle]; exact hsz.2
          · simp only [hj.1, Content.curStyle]; exact hcol
      · rw [if_neg hk] at n2 ⊢
        obtain rfl : new1 = [] := by simpa using n2
        exact .nil

end Verif.Typeset
