import Verif.Lemmas.Program.Placing
import Verif.Lemmas.Program.Request
/- The heights of a program's pages, on the canvas. -/
namespace Verif.Placing
open Canvas (Canvas)

def newPage : Content.Call → Option ℚ
  | .addPage h => some h
  | _ => none

theorem sheet_height {e : Content.Env} {tr : Option Nat} {sh sh' : Canvas.Sheet} {k : Content.Call} (h : sh.call e tr k = some sh') : sh'.height = sh.height := by
  cases k <;> simp only [Canvas.Sheet.call, Option.some.injEq] at h <;>
    first
    | (subst h; rfl)
    | (split at h <;> first | (obtain rfl := Option.some.inj h; rfl) | (exact absurd h (by simp)))
    | (next st _ _ _ => cases st <;> (obtain rfl := Option.some.inj h; rfl))
    | (next st _ _ _ _ => cases st <;> (obtain rfl := Option.some.inj h; rfl))

theorem call_heights {e : Content.Env} {c c' : Canvas} {k : Content.Call} (h : c.call e k = some c') :
    c'.sheets.map (·.height) = c.sheets.map (·.height) ++ (newPage k).toList := by
  have on : c.on (fun sh => sh.call e c.trans k) = some c' → c'.sheets.map (·.height) = c.sheets.map (·.height) := by
    intro h
    obtain ⟨sh, sh', h1, h2, rfl⟩ := Program.on_spec h
    simp only [List.map_set]
    rw [sheet_height h2]
    obtain ⟨hlt, h1⟩ := List.getElem?_eq_some_iff.1 h1
    rw [← h1]
    have : c.sheets[c.cur].height = (c.sheets.map (·.height))[c.cur]'(by simpa using hlt) := by simp
    rw [this, List.set_getElem_self]
  cases k
  case addPage ht => simp only [Canvas.Canvas.call, Option.some.injEq] at h; subst h; simp [newPage]
  case setPage n =>
    simp only [Canvas.Canvas.call, Option.some.injEq] at h; subst h
    simp only [newPage, Option.toList_none, List.append_nil]
    split <;> rfl
  case setTransparency n => simp only [Canvas.Canvas.call, Option.some.injEq] at h; subst h; simp [newPage]
  all_goals (simp only [newPage, Option.toList_none, List.append_nil]; exact on h)

theorem calls_heights {e : Content.Env} : ∀ (l : List Content.Call) (c c' : Canvas), c.calls e l = some c' →
    c'.sheets.map (·.height) = c.sheets.map (·.height) ++ l.filterMap newPage
  | [], c, c', h => by simp only [Canvas.Canvas.calls, Option.some.injEq] at h; subst h; simp
  | k :: l, c, c', h => by
    simp only [Canvas.Canvas.calls, Option.bind_eq_some_iff] at h
    obtain ⟨c1, h1, h2⟩ := h
    rw [calls_heights l c1 c' h2, call_heights h1]
    cases hk : newPage k <;> simp [hk]

def sheetHeight (ce : Content.Env) (size : Units.Rect) (t : Placing.Sheet) : ℚ := match t.size with
  | some s => s.2
  | none => (paper ce size).2

theorem link_heights (ce : Content.Env) (size : Units.Rect) (p : Plan) (l : Link) : (p.link l).sheets.map (sheetHeight ce size) = p.sheets.map (sheetHeight ce size) := by
  unfold Plan.link
  simp only
  generalize p.sheets.length - 1 = k
  generalize p.sheets = ts
  induction ts generalizing k with
  | nil => simp
  | cons t ts ih => cases k with
    | zero => simp [sheetHeight]
    | succ k => simp [ih]

theorem plan_heights {ce : Content.Env} {size : Units.Rect} : ∀ (prog : List Call) (p : Plan) (s s' : Program.St),
    (∀ k, Call.other k ∈ prog → plainOther k = true) → Program.steps ce s (toProgram ce size s.next prog) = some s' →
    (plan ce size p s prog).sheets.map (sheetHeight ce size) =
      p.sheets.map (sheetHeight ce size) ++ (Program.requests ce s (toProgram ce size s.next prog)).filterMap newPage
  | [], p, s, s', _, h => by simp [plan, toProgram, Program.requests]
  | c :: prog, p, s, s', hc, h => by
    simp only [toProgram] at h ⊢
    obtain ⟨s1, h1, h2⟩ := Program.steps_cons h
    have hn := (step_doc h1).1
    rw [← hn] at h2
    have ih := plan_heights prog (p.add ce s c) s1 s' (fun k hk => hc k (by simp [hk])) h2
    simp only [plan, h1, Program.requests, List.filterMap_append]
    rw [ih, ← hn, ← List.append_assoc]
    congr 1
    have quiet : ∀ x : List Content.Call, (∀ y ∈ x, newPage y = none) → x.filterMap newPage = [] := fun x hx => by simpa using hx
    have obj : ∀ op, toCall ce size s.next c = .object op →
        (if Program.succeeds s (toCall ce size s.next c) then (Program.request (toCall ce size s.next c)).toList else []).filterMap newPage = [] := by
      intro op ho
      rw [ho]
      simp [Program.request]
    cases c with
    | other k =>
      have hk := hc k (by simp)
      have hy : ∀ y, Program.request k = some y → newPage y = none := by
        intro y hy
        simp only [toCall] at h1
        cases k with
        | plain x =>
          simp only [Program.request, Option.some.injEq] at hy
          subst hy
          cases hx : newPage x with
          | none => rfl
          | some ht =>
            cases x <;> simp [newPage] at hx
            simp [Program.step, Program.docOp, Program.plainCall] at h1
        | addPage x => simp [plainOther] at hk
        | imageOpt img i tr m => cases m <;> (simp only [Program.request, Option.some.injEq] at hy; subst hy; rfl)
        | object o => simp [Program.request] at hy
        | _ => simp only [Program.request, Option.some.injEq] at hy; subst hy; rfl
      simp only [Plan.add, toCall]
      rw [quiet, List.append_nil]
      intro y hm
      replace hm : y ∈ (if Program.succeeds s k then (Program.request k).toList else []) := hm
      refine hy y ?_
      by_cases hsx : Program.succeeds s k = true
      · rw [if_pos hsx] at hm; simpa using hm
      · rw [if_neg hsx] at hm; simp at hm
    | addPage sz trim =>
      have hsucc : Program.succeeds s (toCall ce size s.next (.addPage sz trim)) = true := by
        simp [toCall, Program.succeeds, Program.docOp, Doc.step]
      rw [hsucc]
      simp only [Plan.add, List.map_append, List.map_singleton, if_true, toCall, Program.request, Option.toList_some, List.filterMap_cons, newPage, List.filterMap_nil]
      cases sz with
      | none => simp [pageHeight, sheetHeight, docSize_paper]
      | some r => simp [pageHeight, sheetHeight, optSize_paper]
    | externalLink url x y w h => 
      cases url with
      | nil => rw [obj _ rfl, List.append_nil]; exact link_heights ce size p _
      | cons b url => rw [obj _ rfl, List.append_nil]; exact link_heights ce size p _
    | internalLink name x y w h => rw [obj _ rfl, List.append_nil]; exact link_heights ce size p _
    | setAnchor name => rw [obj _ rfl, List.append_nil]; rfl
    | addOutline t => rw [obj _ rfl, List.append_nil]; rfl
    | addOutlineWithPosition t => rw [obj _ rfl, List.append_nil]; rfl

end Verif.Placing
