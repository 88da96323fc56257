import Verif.Lemmas.Program.Tint
/- The graphics states of the characters of a page, call by call. -/
set_option maxRecDepth 10000
namespace Verif.Content
open Program (exts exts1)

/-- If the last item of the page is text that more text may be joined with, its graphics states satisfy `P`. -/
def RunOK (s : St) (P : List Nat → Prop) : Prop := ∀ pre t, s.pages.getD s.page [] = pre ++ [.text t] →
  t.setXCount ≤ s.cur.setXCount ∧ (t.setXCount = s.cur.setXCount → t.rectangle = none → P t.opt.ext)

theorem exts_snoc (a : List Item) (i : Item) : exts (a ++ [i]) = exts a ++ exts1 i := by simp [exts]

theorem extend_kept {e : Env} {c t : TextItem} {text : List Nat} (h : extend e c text = some t) :
    t.rectangle = c.rectangle ∧ t.setXCount = c.setXCount ∧ t.opt = c.opt ∧ t.text = c.text ++ text := by
  unfold extend at h
  obtain ⟨r, _, rfl⟩ := Option.map_eq_some_iff.1 h
  exact ⟨rfl, rfl, rfl, rfl⟩

/-- One text. -/
theorem append_exts {e : Env} {items items' : List Item} {cur : Cur} {cell : Bool} {rect : Option Units.Rect} {opt : CellOption} {text : List Nat}
    {x y : ℚ} {P Q : List Nat → Prop} (h : appendContentText e items (newText cur cell rect opt) text = some (items', x, y))
    (hr : ∀ pre t, items = pre ++ [.text t] → t.setXCount ≤ cur.setXCount ∧ (t.setXCount = cur.setXCount → t.rectangle = none → P t.opt.ext))
    (hpq : ∀ l, P l → Q l) (hq : Q opt.ext) :
    (∃ new, exts items' = exts items ++ new ∧ new.length = text.length ∧ ∀ l ∈ new, Q l) ∧
    ∀ pre t, items' = pre ++ [.text t] → t.setXCount ≤ cur.setXCount ∧
      (t.setXCount = cur.setXCount → t.rectangle = none → (if rect = none then Q t.opt.ext else P t.opt.ext)) := by
  obtain ⟨pre, c', t, hc, hx, rfl, -, -⟩ := append_cases h
  obtain ⟨k1, k2, k3, k4⟩ := extend_kept hx
  rcases hc with ⟨rfl, hs⟩ | ⟨rfl, rfl, -⟩
  · obtain ⟨f1, -, -, -, -, -, -, f8, -⟩ := isSame_fields hs
    obtain ⟨r1, r2⟩ := hr pre c' rfl
    have hp := r2 f8 f1
    refine ⟨⟨text.map fun _ => c'.opt.ext, ?_, by simp, ?_⟩, ?_⟩
    · rw [exts_snoc, exts_snoc]
      simp only [exts1, k4, k3, List.map_append, List.append_assoc]
    · intro l hl
      simp only [List.mem_map] at hl
      obtain ⟨_, _, rfl⟩ := hl
      exact hpq _ hp
    · intro pre' t' he
      obtain ⟨-, he⟩ := List.append_inj' he rfl
      simp only [List.cons.injEq, Item.text.injEq, and_true] at he
      subst he
      refine ⟨by rw [k2]; exact r1, fun _ _ => ?_⟩
      rw [k3]
      split
      · exact hpq _ hp
      · exact hp
  · refine ⟨⟨text.map fun _ => opt.ext, ?_, by simp, ?_⟩, ?_⟩
    · rw [exts_snoc]
      simp only [exts1, k4, k3, List.map_append]
      rfl
    · intro l hl
      simp only [List.mem_map] at hl
      obtain ⟨_, _, rfl⟩ := hl
      exact hq
    · intro pre' t' he
      obtain ⟨-, he⟩ := List.append_inj' he rfl
      simp only [List.cons.injEq, Item.text.injEq, and_true] at he
      subst he
      refine ⟨by rw [k2]; exact Nat.le_refl _, fun _ hrect => ?_⟩
      rw [k1] at hrect
      rw [if_pos (show rect = none from hrect), k3]
      exact hq

/-- The graphics states of the text of a call. -/
def extOf (s : St) : Call → List Nat
  | .cellWithOption _ _ opt tr => opt.ext ++ transOf s tr
  | _ => []

def textCall : Call → Bool
  | .text _ | .cell _ _ | .cellWithOption _ _ _ _ => true
  | _ => false

def boxCall : Call → Bool
  | .cell (some _) _ | .cellWithOption (some _) _ _ _ => true
  | _ => false

def partCall : Call → Bool
  | .addPage _ | .setX _ | .setXY _ _ | .line _ _ _ _ => true
  | _ => false

theorem step_setX {e : Env} {s s' : St} {c : Call} (h : step e s c = some s') : s.cur.setXCount ≤ s'.cur.setXCount ∧
    ((∃ x, c = .setX x) ∨ (∃ x y, c = .setXY x y) → s.cur.setXCount < s'.cur.setXCount) := by
  cases c with
  | text t => obtain ⟨x, y, hx⟩ := addText_cur h; rw [hx]; simp
  | cell r t => obtain ⟨x, y, hx⟩ := addText_cur h; rw [hx]; simp
  | cellWithOption r t o tr => obtain ⟨x, y, hx⟩ := addText_cur h; rw [hx]; simp
  | setPage n => simp only [step, Option.some.injEq] at h; subst h; split <;> simp
  | _ => simp only [step, Option.some.injEq] at h; subst h; simp [St.add]

theorem step_exts {e : Env} {s s' : St} {c : Call} {P Q : List Nat → Prop} (h : step e s c = some s') (hp : s.page < s.pages.length)
    (hset : ∀ n, c ≠ .setPage n) (hr : RunOK s P) (hpq : textCall c = true → ∀ l, P l → Q l) (hq : textCall c = true → Q (extOf s c)) (k : Nat) :
    (∃ new, exts (s'.pages.getD k []) = exts (s.pages.getD k []) ++ new ∧
      new.length = (if s.page = k then (Drawing.written c).length else 0) ∧ ∀ l ∈ new, Q l) ∧
    RunOK s' (if partCall c then fun _ => False else if textCall c then (if boxCall c then P else Q) else P) := by
  have set_at : ∀ (items : List Item) (k : Nat), s'.pages = s.pages.set s.page items → s'.pages.getD k [] = if s.page = k then items else s.pages.getD k [] := by
    intro items k hpg
    rw [hpg, List.getD_eq_getElem?_getD]
    by_cases hn : s.page = k
    · subst hn; simp [hp]
    · rw [List.getElem?_set_ne hn, if_neg hn, ← List.getD_eq_getElem?_getD]
  have text : ∀ (cell : Bool) (rect : Option Units.Rect) (opt : CellOption) (t : List Nat), s.addText e (newText s.cur cell rect opt) t = some s' →
      textCall c = true → opt.ext = extOf s c → Drawing.written c = t →
      (∃ new, exts (s'.pages.getD k []) = exts (s.pages.getD k []) ++ new ∧
        new.length = (if s.page = k then (Drawing.written c).length else 0) ∧ ∀ l ∈ new, Q l) ∧ RunOK s' (if rect = none then Q else P) := by
    intro cell rect opt t hadd ht hext hw
    have hcur := addText_cur hadd
    unfold St.addText at hadd
    split at hadd
    · exact absurd hadd (by simp)
    · next items x y hap =>
      have hpg : s'.pages = s.pages.set s.page items := by rw [← Option.some.inj hadd]
      have hpage : s'.page = s.page := by rw [← Option.some.inj hadd]
      obtain ⟨⟨new, n1, n2, n3⟩, n4⟩ := append_exts hap hr (hpq ht) (hext ▸ hq ht)
      refine ⟨?_, ?_⟩
      · rw [set_at _ _ hpg]
        by_cases hk : s.page = k
        · subst hk
          exact ⟨new, by rw [if_pos rfl, n1], by rw [if_pos rfl, n2, hw], n3⟩
        · exact ⟨[], by simp [hk], by simp [hk], by simp⟩
      · intro pre u hu
        rw [hpage, set_at _ _ hpg, if_pos rfl] at hu
        obtain ⟨a, b, hcur⟩ := hcur
        obtain ⟨m1, m2⟩ := n4 pre u hu
        rw [hcur]
        refine ⟨m1, fun h1 h2 => ?_⟩
        have := m2 h1 h2
        split at this
        · next hn => rw [if_pos hn]; exact this
        · next hn => rw [if_neg hn]; exact this
  have kept : s'.pages = s.pages → s'.page = s.page → RunOK s' P := by
    intro h1 h2 pre t ht
    rw [h1, h2] at ht
    obtain ⟨a, b⟩ := hr pre t ht
    have := (step_setX h).1
    exact ⟨by omega, fun h3 h4 => b (by omega) h4⟩
  have item : ∀ i : Item, (∀ t, i ≠ .text t) → s'.pages = s.pages.set s.page (s.pages.getD s.page [] ++ [i]) → s'.page = s.page → ∀ R, RunOK s' R := by
    intro i hi h1 h2 R pre t ht
    rw [h2, set_at _ _ h1, if_pos rfl] at ht
    obtain ⟨-, ht⟩ := List.append_inj' ht rfl
    simp only [List.cons.injEq, and_true] at ht
    exact absurd ht (hi t)
  cases step_did h with
  | addPage x hpg hc =>
    refine ⟨⟨[], by rw [hpg, getD_append_nil]; simp, by simp [Drawing.written], by simp⟩, ?_⟩
    intro pre t ht
    rw [hc, hpg] at ht
    simp at ht
  | setPage n hpg hc => exact absurd rfl (hset n)
  | keep _ ha hs hw hpg hc =>
    refine ⟨⟨[], by rw [hpg]; simp, by rw [hw]; simp, by simp⟩, ?_⟩
    have hk := kept hpg hc
    cases c with
    | addPage x => exact absurd rfl (ha x)
    | setX x =>
      intro pre t ht
      obtain ⟨a, b⟩ := hk pre t ht
      rw [hpg, hc] at ht
      have := (hr pre t ht).1
      have := (step_setX h).2 (.inl ⟨_, rfl⟩)
      exact ⟨a, fun h3 => by omega⟩
    | setXY x y =>
      intro pre t ht
      obtain ⟨a, b⟩ := hk pre t ht
      rw [hpg, hc] at ht
      have := (hr pre t ht).1
      have := (step_setX h).2 (.inr ⟨_, _, rfl⟩)
      exact ⟨a, fun h3 => by omega⟩
    | line a b c d =>
      simp only [step, Option.some.injEq] at h
      subst h
      exact item (.line _ _ _ _ _ _) (by simp) (modify_eq_set _ _ _) rfl _
    | text t => exact (text _ _ _ _ h rfl rfl rfl).2
    | cell r t =>
      have := (text _ _ _ _ h rfl rfl rfl).2
      cases r <;> simpa [partCall, textCall, boxCall, rectPoints] using this
    | cellWithOption r t o tr =>
      have := (text _ _ _ _ h rfl rfl rfl).2
      cases r <;> simpa [partCall, textCall, boxCall, rectPoints] using this
    | _ => exact hk
  | item _ ha hs hw i hi hpg hc =>
    refine ⟨⟨[], ?_, by rw [hw]; simp, by simp⟩, item i hi hpg hc _⟩
    rw [set_at _ _ hpg]
    have : exts1 i = [] := by cases i <;> first | rfl | exact absurd rfl (hi _)
    split
    · next hn => rw [exts_snoc, this, hn]
    · simp
  | text _ ha hs t cell rect opt ht hq' hadd =>
    cases c with
    | text t => exact text _ _ _ _ h rfl rfl rfl
    | cell r t =>
      obtain ⟨a, b⟩ := text _ _ _ _ h rfl rfl rfl
      refine ⟨a, ?_⟩
      cases r <;> simpa [partCall, textCall, boxCall, rectPoints] using b
    | cellWithOption r t o tr =>
      obtain ⟨a, b⟩ := text _ _ _ _ h rfl rfl rfl
      refine ⟨a, ?_⟩
      cases r <;> simpa [partCall, textCall, boxCall, rectPoints] using b
    | _ => simp [Drawing.asked] at hq'

end Verif.Content
