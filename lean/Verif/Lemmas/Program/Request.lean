import Verif.Lemmas.Program.Figures
import Verif.Spec.Request
/- The calls of a program on the canvas, with and without the numbers of resources. -/
namespace Verif.Program
open Paint (Colour)
open Canvas (Figure Pen Sheet Canvas)

def barePen (p : Pen) : Pen := { p with stroke := bareColour p.stroke }

def bareSheet (s : Sheet) : Sheet := { height := s.height, pen := barePen s.pen, saved := s.saved.map barePen, figs := s.figs.map bare }

def bareCanvas (c : Canvas) : Canvas := { sheets := c.sheets.map bareSheet, cur := c.cur, trans := none }

/-- The call without numbers of resources. -/
def bareCall : Content.Call → Content.Call
  | .setFont _ st size => .setFont 0 st size
  | .setTransparency _ => .setTransparency none
  | .setColourSpace _ => .setColourSpace 0
  | .cellWithOption r t opt _ => .cellWithOption r t { opt with ext := [] } none
  | .rectLowerOpt x y w h st _ => .rectLowerOpt x y w h st none
  | .rectUpperOpt x y w h st _ => .rectUpperOpt x y w h st none
  | .image i => .image { i with index := 0, ext := [] }
  | c => c

theorem bareColour_bare (c : Colour) : bareColour (bareColour c) = bareColour c := by cases c <;> rfl

theorem sheet_bare (e : Content.Env) (tr tr' : Option Nat) (sh sh' : Sheet) (h : bareSheet sh = bareSheet sh') (k : Content.Call) :
    (sh.call e tr k).map bareSheet = (sh'.call e tr' (bareCall k)).map bareSheet := by
  obtain ⟨h1, pen, saved, figs⟩ := sh
  obtain ⟨h1', pen', saved', figs'⟩ := sh'
  simp only [bareSheet, Sheet.mk.injEq] at h
  obtain ⟨rfl, hp, hs, hf⟩ := h
  obtain ⟨pw, pd, pst, pf, pc, pcl⟩ := pen
  obtain ⟨pw', pd', pst', pf', pc', pcl'⟩ := pen'
  have hp' := hp
  simp only [barePen, Pen.mk.injEq] at hp'
  obtain ⟨rfl, rfl, hst, rfl, rfl, rfl⟩ := hp'
  cases k
  case restore | rotateReset =>
    cases saved <;> cases saved' <;> simp_all [Sheet.call, bareCall, bareSheet]
  case setColour st r g b => cases st <;> simp [Sheet.call, bareCall, bareSheet, hs, hf] <;> simp [barePen, hst]
  case setColourCMYK st a b c d => cases st <;> simp [Sheet.call, bareCall, bareSheet, hs, hf] <;> simp [barePen, hst]
  case clipPolygon pts =>
    by_cases hpts : pts = [] <;> simp [Sheet.call, bareCall, bareSheet, hs, hf, hpts] <;> simp [barePen, hst]
  case polygon pts st =>
    by_cases hpts : pts = [] <;> simp [Sheet.call, Sheet.paint, bareCall, bareSheet, hst, hs, hf, hpts, bare] <;> simp [barePen, hst]
  all_goals simp [Sheet.call, Sheet.paint, bareCall, bareSheet, hp, hst, hs, hf, bare, Canvas.imageMatrix, Canvas.cropOffset, Canvas.shown]
  all_goals first | (simp [barePen, hst]; done) | simp [barePen, bareColour]

/-- One call on the canvas. -/
theorem canvas_bare (e : Content.Env) (c c' : Canvas) (h : bareCanvas c = bareCanvas c') (k : Content.Call) :
    (c.call e k).map bareCanvas = (c'.call e (bareCall k)).map bareCanvas := by
  have hlen : c.sheets.length = c'.sheets.length := by
    have := congrArg (fun c : Canvas => c.sheets.length) h
    simpa [bareCanvas] using this
  have hsh : c.sheets.map bareSheet = c'.sheets.map bareSheet := congrArg Canvas.Canvas.sheets h
  have hcur : c.cur = c'.cur := by
    have := congrArg Canvas.Canvas.cur h
    exact this
  have on : (c.on fun sh => sh.call e c.trans k).map bareCanvas = (c'.on fun sh => sh.call e c'.trans (bareCall k)).map bareCanvas := by
    unfold Canvas.Canvas.on
    rw [← hcur]
    have hget : (c.sheets[c.cur]?).map bareSheet = (c'.sheets[c.cur]?).map bareSheet := by
      rw [← List.getElem?_map, ← List.getElem?_map, hsh]
    cases h1 : c.sheets[c.cur]? with
    | none =>
      rw [h1] at hget
      cases h2 : c'.sheets[c.cur]? with
      | none => rfl
      | some sh' => rw [h2] at hget; simp at hget
    | some sh =>
      rw [h1] at hget
      cases h2 : c'.sheets[c.cur]? with
      | none => rw [h2] at hget; simp at hget
      | some sh' =>
        rw [h2] at hget
        simp only [Option.map_some, Option.some.injEq] at hget
        have := sheet_bare e c.trans c'.trans sh sh' hget k
        simp only [Option.map_map]
        cases h3 : sh.call e c.trans k with
        | none =>
          rw [h3] at this
          cases h4 : sh'.call e c'.trans (bareCall k) with
          | none => rfl
          | some x => rw [h4] at this; simp at this
        | some x =>
          rw [h3] at this
          cases h4 : sh'.call e c'.trans (bareCall k) with
          | none => rw [h4] at this; simp at this
          | some x' =>
            rw [h4] at this
            simp only [Option.map_some, Option.some.injEq] at this
            simp only [Option.map_some, Function.comp_apply, bareCanvas, Option.some.injEq, Canvas.Canvas.mk.injEq, List.map_set, hsh, this, hcur, and_self]
  cases k
  case addPage ht => simp [Canvas.Canvas.call, bareCall, bareCanvas, hsh, hlen]
  case setPage n =>
    simp only [Canvas.Canvas.call, bareCall, hlen]
    split <;> simp [bareCanvas, hsh, hcur]
  case setTransparency n => simp [Canvas.Canvas.call, bareCall, bareCanvas, hsh, hcur]
  all_goals exact on

theorem calls_bare (e : Content.Env) : ∀ (l : List Content.Call) (c c' : Canvas), bareCanvas c = bareCanvas c' →
    (c.calls e l).map bareCanvas = (c'.calls e (l.map bareCall)).map bareCanvas
  | [], c, c', h => by simp [Canvas.Canvas.calls, h]
  | k :: l, c, c', h => by
    have := canvas_bare e c c' h k
    simp only [Canvas.Canvas.calls, List.map_cons]
    cases h1 : c.call e k with
    | none =>
      rw [h1] at this
      cases h2 : c'.call e (bareCall k) with
      | none => rfl
      | some x => rw [h2] at this; simp at this
    | some x =>
      rw [h1] at this
      cases h2 : c'.call e (bareCall k) with
      | none => rw [h2] at this; simp at this
      | some x' =>
        rw [h2] at this
        simp only [Option.map_some, Option.some.injEq] at this
        exact calls_bare e l x x' this

theorem same_request (d : Doc.Doc) (en : Doc.Entry) {c : Call} {k : Content.Call} (h : contentCall d en c = some k) :
    [k].map bareCall = (request c).toList.map bareCall := by
  cases c with
  | image img i =>
    simp only [contentCall, Option.map_eq_some_iff] at h
    obtain ⟨_, _, rfl⟩ := h
    rfl
  | imageOpt img i tr mask =>
    simp only [contentCall, Option.map_eq_some_iff] at h
    obtain ⟨_, _, rfl⟩ := h
    cases mask <;> rfl
  | setColourSpace name =>
    simp only [contentCall, Option.map_eq_some_iff] at h
    obtain ⟨_, _, rfl⟩ := h
    rfl
  | object op => simp [contentCall] at h
  | _ =>
    simp only [contentCall, Option.some.injEq] at h
    subst h
    rfl

/-- What a call of a program draws is what it asks for. -/
theorem draws_request {e : Content.Env} {s s' : St} {c : Call} (hr : Doc.Reachable s.doc) (h : step e s c = some s') :
    (draws s c).map bareCall = (if succeeds s c then (request c).toList else []).map bareCall := by
  cases step_made h with
  | pen a1 k a2 a3 a4 a5 =>
    simp only [draws, a1, succeeds, if_true, a2, Option.toList_some]
    exact same_request _ _ a2
  | err op a1 a2 a3 a5 => simp [draws, a1, a2, succeeds]
  | quiet op a1 a2 a3 a4 a5 =>
    simp only [draws, a1, a2, succeeds, if_true, decide_true, a3]
    have ho : (Doc.step s.doc op).2 = .ok := by rw [a2]
    have hd : (Doc.step s.doc op).1 = s'.doc := by rw [a2]
    cases c with
    | object o => rfl
    | setColourSpace name =>
      simp only [docOp, Option.some.injEq] at a1; subst a1
      obtain ⟨en, k, _, _, e1, _, e2, _⟩ := Doc.setColorSpace_entry hr s.next name ho
      rw [hd] at e1
      simp [contentCall, e1, e2] at a3
    | image img i =>
      simp only [docOp, Option.some.injEq] at a1; subst a1
      obtain ⟨en, k, _, _, _, e1, _, e2, _⟩ := Doc.image_entry hr s.next img ho
      rw [hd] at e1
      simp [contentCall, e1, e2] at a3
    | imageOpt img i tr mask =>
      simp only [docOp, Option.some.injEq] at a1; subst a1
      obtain ⟨en, k, _, _, _, e1, _, e2, _⟩ := Doc.imageOpt_entry hr s.next img tr _ ho
      rw [hd] at e1
      simp [contentCall, e1, e2] at a3
    | _ => simp [contentCall] at a3
  | both op a1 a2 k a3 a4 a5 =>
    simp only [draws, a1, a2, succeeds, if_true, decide_true, a3, Option.toList_some]
    exact same_request _ _ a3

theorem drawCalls_requests {e : Content.Env} : ∀ (prog : List Call) (s s' : St), Doc.Reachable s.doc → steps e s prog = some s' →
    (drawCalls e s prog).map bareCall = (requests e s prog).map bareCall
  | [], _, _, _, _ => rfl
  | c :: prog, s, s', hr, h => by
    obtain ⟨s1, h1, h2⟩ := steps_cons h
    have hr1 : Doc.Reachable s1.doc := by
      cases step_made h1 with
      | pen a1 k a2 a3 a4 a5 => rw [a3]; exact hr
      | err op a1 a2 a3 a5 => have := Doc.Reachable.step hr op; rw [a2] at this; exact this
      | quiet op a1 a2 a3 a4 a5 => have := Doc.Reachable.step hr op; rw [a2] at this; exact this
      | both op a1 a2 k a3 a4 a5 => have := Doc.Reachable.step hr op; rw [a2] at this; exact this
    rw [drawCalls_cons prog h1]
    simp only [requests, h1, List.map_append, draws_request hr h1, drawCalls_requests prog s1 s' hr1 h2]

/-- The canvas of a program and the canvas of its requests. -/
theorem requests_canvas {e : Content.Env} {prog : List Call} {s s' : St} (hr : Doc.Reachable s.doc) (h : steps e s prog = some s') (c : Canvas) :
    ((c.calls e (drawCalls e s prog)).map bareCanvas) = (c.calls e (requests e s prog)).map bareCanvas := by
  rw [calls_bare e (drawCalls e s prog) c c rfl, drawCalls_requests prog s s' hr h, ← calls_bare e (requests e s prog) c c rfl]

theorem bare_undecorated (x : Content.Call) : Canvas.Undecorated (bareCall x) ↔ Canvas.Undecorated x := by
  cases x <;> simp [bareCall, Canvas.Undecorated]

theorem requests_undecorated {e : Content.Env} {prog : List Call} {s s' : St} (hr : Doc.Reachable s.doc) (h : steps e s prog = some s')
    (hu : ∀ x ∈ requests e s prog, Canvas.Undecorated x) : ∀ x ∈ drawCalls e s prog, Canvas.Undecorated x := by
  intro x hx
  rw [← bare_undecorated]
  have : bareCall x ∈ (drawCalls e s prog).map bareCall := List.mem_map.2 ⟨x, hx, rfl⟩
  rw [drawCalls_requests prog s s' hr h] at this
  obtain ⟨y, hy, he⟩ := List.mem_map.1 this
  rw [← he, bare_undecorated]
  exact hu y hy

end Verif.Program
