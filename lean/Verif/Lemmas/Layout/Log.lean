import Verif.Lemmas.Program.Wishes
import Verif.Spec.Layout
/- The calls the layout functions make. -/
set_option maxRecDepth 10000
namespace Verif.Layout
open Typeset (wishes Wish Face Registered registerFont selectFont startsPage texts)

theorem steps_append {base : Content.Env} : ∀ (a b : List Typeset.Call) (s : Typeset.St),
    Typeset.steps base s (a ++ b) = (Typeset.steps base s a).bind fun p => (Typeset.steps base p.1 b).map fun q => (q.1, p.2 ++ q.2)
  | [], b, s => by simp [Typeset.steps]
  | c :: a, b, s => by
    simp only [List.cons_append, Typeset.steps]
    cases h : Typeset.step base s c with
    | none => rfl
    | some p =>
      simp only [Option.bind_some, steps_append a b p.1]
      cases h1 : Typeset.steps base p.1 a with
      | none => rfl
      | some q =>
        simp only [Option.bind_some, Option.map_some]
        cases Typeset.steps base q.1 b <;> simp

/-- From the first state to the second with the calls `cs`. -/
def From (base : Content.Env) (l l' : Log) (cs : List Typeset.Call) : Prop :=
  l'.calls = l.calls ++ cs ∧ ∃ ds, l'.drawn = l.drawn ++ ds ∧ Typeset.steps base l.s cs = some (l'.s, ds)

theorem From.refl (base : Content.Env) (l : Log) : From base l l [] := ⟨by simp, [], by simp, rfl⟩

theorem From.trans {base : Content.Env} {a b c : Log} {cs ds : List Typeset.Call} (h : From base a b cs) (h' : From base b c ds) :
    From base a c (cs ++ ds) := by
  obtain ⟨h1, x, h2, h3⟩ := h
  obtain ⟨h4, y, h5, h6⟩ := h'
  refine ⟨by rw [h4, h1, List.append_assoc], x ++ y, by rw [h5, h2, List.append_assoc], ?_⟩
  rw [steps_append, h3]
  simp [h6]

theorem act_from {base : Content.Env} {l l' : Log} {c : Typeset.Call} (h : l.act base c = some l') : From base l l' [c] := by
  unfold Log.act at h
  obtain ⟨p, h1, rfl⟩ := Option.map_eq_some_iff.1 h
  exact ⟨rfl, p.2.toList, rfl, by simp [Typeset.steps, h1]⟩

theorem acts_from {base : Content.Env} : ∀ (cs : List Typeset.Call) {l l' : Log}, l.acts base cs = some l' → From base l l' cs
  | [], l, l', h => by
    simp only [Log.acts, Option.some.injEq] at h
    subst h
    exact From.refl base l
  | c :: cs, l, l', h => by
    obtain ⟨l1, h1, h2⟩ := Option.bind_eq_some_iff.1 h
    exact (act_from h1).trans (acts_from cs h2)

theorem measure_from {base : Content.Env} {l l' : Log} {t : List Nat} {w : ℚ} (h : l.measure base t = some (w, l')) :
    From base l l' [.measure t] ∧ l.s.measureWidth base t = some w := by
  unfold Log.measure at h
  obtain ⟨w', h1, h2⟩ := Option.bind_eq_some_iff.1 h
  obtain ⟨l1, h3, h4⟩ := Option.map_eq_some_iff.1 h2
  simp only [Prod.mk.injEq] at h4
  obtain ⟨rfl, rfl⟩ := h4
  exact ⟨act_from h3, h1⟩

/-! ### Calls that change neither fonts nor pages -/

/-- Neither a page, nor a font, nor a setting of text. -/
def Still : Typeset.Call → Prop
  | .addFont _ _ _ => False
  | .other (.addPage _) | .other (.setFont _ _ _) | .other (.plain (.setFontSize _)) | .other (.plain (.setCharSpacing _))
  | .other (.plain (.template _ _ _ _ _)) => False
  | _ => True

theorem Still.reg {c : Typeset.Call} (h : Still c) (reg : Registered) : registerFont reg c = reg := by
  cases c <;> first | rfl | exact h.elim

theorem Still.sel {c : Typeset.Call} (h : Still c) (reg : Registered) (cur : Option Face) : selectFont reg cur c = cur := by
  cases c with
  | other k => cases k <;> first | rfl | exact h.elim
  | _ => rfl

theorem Still.page {c : Typeset.Call} (h : Still c) : startsPage c = false := by
  cases c with
  | other k => cases k <;> first | rfl | exact h.elim
  | _ => rfl

theorem wishes_still (k : Nat) : ∀ (cs : List Typeset.Call), (∀ c ∈ cs, Still c) → ∀ (n : Nat) (reg : Registered) (f : Face),
    wishes k n reg (some f) cs = if n = k then (cs.flatMap texts).map fun r => ⟨f, r⟩ else []
  | [], _, n, reg, f => by simp [wishes]
  | c :: cs, h, n, reg, f => by
    have hc := h c (by simp)
    simp only [wishes, hc.reg, hc.sel, hc.page, Bool.false_eq_true, if_false,
      wishes_still k cs (fun x hx => h x (by simp [hx]))]
    by_cases hn : n = k <;> simp [hn]

theorem wishes_append (k : Nat) : ∀ (a b : List Typeset.Call) (n : Nat) (reg : Registered) (cur : Option Face),
    wishes k n reg cur (a ++ b) = wishes k n reg cur a ++
      wishes k (n + a.countP startsPage) (a.foldl registerFont reg) ((a.foldl (fun (p : Registered × Option Face) c => (registerFont p.1 c, selectFont p.1 p.2 c)) (reg, cur)).2) b
  | [], b, n, reg, cur => by simp [wishes]
  | c :: a, b, n, reg, cur => by
    simp only [List.cons_append, wishes, wishes_append k a b, List.foldl_cons, List.countP_cons, List.append_assoc]
    congr 3
    by_cases hc : startsPage c = true <;> simp [hc]; omega

/-! ### MultiCell -/

/-- Measuring, cells and movements, with characters that satisfy `P`. -/
def Makes (P : Nat → Prop) (c : Typeset.Call) : Prop :=
  Still c ∧ (match c with | .text t | .cell _ t | .cellWithOption _ t _ _ | .measure t => ∀ r ∈ t, P r | _ => True)

theorem lineAndBreak_from {base : Content.Env} {P : Nat → Prop} {l l' : Log} {w lh x : ℚ} {line : List Nat} (hP : ∀ r ∈ line, P r)
    (h : lineAndBreak base l w lh x line = some l') :
    ∃ cs, From base l l' cs ∧ (∀ c ∈ cs, Makes P c) ∧ cs.flatMap texts = line := by
  refine ⟨_, acts_from _ h, ?_, by simp [texts]⟩
  intro c hc
  simp only [List.mem_cons, List.not_mem_nil, or_false] at hc
  rcases hc with rfl | rfl | rfl
  · exact ⟨trivial, hP⟩
  · exact ⟨trivial, trivial⟩
  · exact ⟨trivial, trivial⟩

theorem multiCellLoop_from {base : Content.Env} {P : Nat → Prop} {r : Units.Rect} {lh x : ℚ} : ∀ (rest : List Nat) {l l' : Log} {line : List Nat} {total : ℚ},
    (∀ r ∈ line, P r) → (∀ r ∈ rest, P r) → multiCellLoop base r lh x l line total rest = some l' →
    ∃ cs, From base l l' cs ∧ (∀ c ∈ cs, Makes P c) ∧ cs.flatMap texts <+: line ++ rest
  | [], l, l', line, total, _, _, h => by
    simp only [multiCellLoop, Option.some.injEq] at h
    subst h
    exact ⟨[], From.refl base l, by simp, by simp⟩
  | v :: rest, l, l', line, total, hl, hr, h => by
    simp only [multiCellLoop] at h
    split at h
    · obtain rfl := Option.some.inj h
      exact ⟨[], From.refl base l, by simp, by simp⟩
    · obtain ⟨⟨a, l1⟩, h1, h⟩ := Option.bind_eq_some_iff.1 h
      obtain ⟨⟨b, l2⟩, h2, h⟩ := Option.bind_eq_some_iff.1 h
      obtain ⟨l3, h3, h⟩ := Option.bind_eq_some_iff.1 h
      have hv : P v := hr v (by simp)
      have m1 : ∀ c ∈ [Typeset.Call.measure line, .measure [v]], Makes P c := by
        intro c hc
        simp only [List.mem_cons, List.not_mem_nil, or_false] at hc
        rcases hc with rfl | rfl
        · exact ⟨trivial, hl⟩
        · exact ⟨trivial, by simpa using hv⟩
      have f12 := (measure_from h1).1.trans (measure_from h2).1
      simp only at h3 h
      by_cases hb : a + b > r.w
      · simp only [hb, if_true] at h3 h
        obtain ⟨cs, c1, c2, c3⟩ := lineAndBreak_from hl h3
        by_cases he : rest = []
        · subst he
          rw [if_pos rfl] at h
          obtain ⟨ds, d1, d2, d3⟩ := lineAndBreak_from (P := P) (by simpa using hv) h
          refine ⟨_, (f12.trans c1).trans d1, ?_, ?_⟩
          · intro c hc
            simp only [List.mem_append] at hc
            rcases hc with (hc | hc) | hc
            · exact m1 c (by simpa using hc)
            · exact c2 c hc
            · exact d2 c hc
          · simp [List.flatMap_append, texts, c3, d3]
        · rw [if_neg he] at h
          obtain ⟨ds, d1, d2, d3⟩ := multiCellLoop_from rest (by simpa using hv) (fun r hr' => hr r (by simp [hr'])) h
          refine ⟨_, (f12.trans c1).trans d1, ?_, ?_⟩
          · intro c hc
            simp only [List.mem_append] at hc
            rcases hc with (hc | hc) | hc
            · exact m1 c (by simpa using hc)
            · exact c2 c hc
            · exact d2 c hc
          · simp only [List.flatMap_append, c3]
            simpa [texts] using d3
      · simp only [hb, if_false] at h3 h
        obtain rfl := Option.some.inj h3
        have hlv : ∀ r ∈ line ++ [v], P r := by
          intro r hr'
          simp only [List.mem_append, List.mem_singleton] at hr'
          rcases hr' with hr' | rfl
          · exact hl r hr'
          · exact hv
        by_cases he : rest = []
        · subst he
          rw [if_pos rfl] at h
          obtain ⟨ds, d1, d2, d3⟩ := lineAndBreak_from hlv h
          refine ⟨_, f12.trans d1, ?_, ?_⟩
          · intro c hc
            rcases List.mem_append.1 hc with hc | hc
            · exact m1 c (by simpa using hc)
            · exact d2 c hc
          · simp [List.flatMap_append, texts, d3]
        · rw [if_neg he] at h
          obtain ⟨ds, d1, d2, d3⟩ := multiCellLoop_from rest hlv (fun r hr' => hr r (by simp [hr'])) h
          refine ⟨_, f12.trans d1, ?_, ?_⟩
          · intro c hc
            rcases List.mem_append.1 hc with hc | hc
            · exact m1 c (by simpa using hc)
            · exact d2 c hc
          · simp only [List.flatMap_append]
            simpa [texts] using d3

/-- `MultiCell`: a prefix of the text as `AddChars` returned it. -/
theorem multiCell_from {base : Content.Env} {P : Nat → Prop} {r : Units.Rect} {l l' : Log} {t : List Nat} (ht : ∀ r ∈ t, P r)
    (hP : ∀ fonts out, l.s.addChars t = some (fonts, out) → ∀ r ∈ out, P r) (h : multiCell base l r t = some l') :
    ∃ fonts out cs, l.s.addChars t = some (fonts, out) ∧ From base l l' cs ∧ (∀ c ∈ cs, Makes P c) ∧ cs.flatMap texts <+: out := by
  unfold multiCell at h
  obtain ⟨lh, h1, h⟩ := Option.bind_eq_some_iff.1 h
  obtain ⟨⟨fonts, out⟩, h2, h⟩ := Option.bind_eq_some_iff.1 h
  obtain ⟨l1, h3, h⟩ := Option.bind_eq_some_iff.1 h
  obtain ⟨cs, c1, c2, c3⟩ := multiCellLoop_from (P := P) out (by simp) (hP _ _ h2) h
  refine ⟨fonts, out, _, h2, (act_from h3).trans c1, ?_, by simpa [texts] using c3⟩
  intro c hc
  simp only [List.cons_append, List.nil_append, List.mem_cons] at hc
  rcases hc with rfl | hc
  · exact ⟨trivial, ht⟩
  · exact c2 c hc

end Verif.Layout
