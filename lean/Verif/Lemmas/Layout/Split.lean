import Verif.Lemmas.Layout.Log
/- The lines of SplitTextWithOption keep the text. -/
set_option maxRecDepth 10000
namespace Verif.Layout
open Typeset (texts)
open Content (BreakOption)

theorem Kept.append {ind : Option Nat} {sep a b w v : List Nat} (h : Kept ind sep a w) (h' : Kept ind sep b v) : Kept ind sep (a ++ b) (w ++ v) := by
  induction h with
  | nil => exact h'
  | newline _ ih => exact .newline ih
  | char hc _ ih => exact .char hc ih
  | indicator hc _ ih => exact .indicator hc ih
  | separator hs _ ih => rw [List.append_assoc]; exact .separator hs ih

theorem Kept.chars {ind : Option Nat} {sep : List Nat} : ∀ {l : List Nat}, 10 ∉ l → Kept ind sep l l
  | [], _ => .nil
  | c :: l, h => .char (fun e => h (by simp [e])) (Kept.chars (fun e => h (by simp [e])))

/-- Nothing but newlines is lost when there is no character to break at and no separator. -/
theorem Kept.plain {t w : List Nat} (h : Kept none [] t w) : w = t.filter fun c => decide (c ≠ 10) := by
  generalize hi : (none : Option Nat) = ind at h
  generalize hs : ([] : List Nat) = sep at h
  induction h with
  | nil => rfl
  | newline _ ih => simp [ih]
  | char hc _ ih => rw [List.filter_cons_of_pos (by simpa using hc), ← ih]
  | indicator hc _ _ => rw [← hi] at hc; cases hc
  | separator h _ _ => exact absurd hs.symm h

structure SInv (ind : Option Nat) (sep text : List Nat) (t : Split.St) : Prop where
  run : t.i < text.length → ∃ d, text.take t.i = d ++ t.line ∧ 10 ∉ t.line ∧ Kept ind sep d t.out.flatten
  fin : text.length ≤ t.i → Kept ind sep text t.out.flatten

theorem SInv.start (ind : Option Nat) (sep text : List Nat) (h : text ≠ []) : SInv ind sep text {} :=
  ⟨fun _ => ⟨[], by simp, by simp, .nil⟩, fun hl => absurd (List.length_eq_zero_iff.1 (by simpa using hl)) h⟩

theorem breakIndex {text : List Nat} {bi : Nat} : ∀ {n b : Nat}, Split.breakIndicatorIndexAux text bi n = some b → text[b]? = some bi ∧ 0 < b
  | 0, b, h => by simp [Split.breakIndicatorIndexAux] at h
  | n + 1, b, h => by
    simp only [Split.breakIndicatorIndexAux] at h
    split at h
    · next hb =>
      obtain rfl := Option.some.inj h
      exact ⟨hb, by omega⟩
    · exact breakIndex h

theorem strictBreak_inv {c : Split.Cfg} {ind : Option Nat} {text : List Nat} {t t' : Split.St} (hi : SInv ind c.separator text t) (hlt : t.i < text.length)
    (h : Split.strictBreak c t = .running t') : SInv ind c.separator text t' := by
  obtain ⟨d, h1, h2, h3⟩ := hi.run hlt
  have hlen : d.length + t.line.length = t.i := by
    have := congrArg List.length h1
    rw [List.length_take, List.length_append] at this
    omega
  unfold Split.strictBreak at h
  split at h
  · next hs =>
    have hsep : c.separator ≠ [] := by
      intro e
      simp [Split.Cfg.hasSep, e] at hs
    simp only at h
    split at h
    · cases h
    · next hk =>
      simp only [not_or, not_lt] at hk
      simp only [Split.Res.running.injEq] at h
      subst h
      refine ⟨fun _ => ⟨text.take t.sepIdx, by simp, by simp, ?_⟩, fun hl => ?_⟩
      · have hle : t.sepIdx ≤ t.i := by omega
        have e : text.take t.sepIdx = d ++ t.line.take ((t.line.length : Int) - ((t.i : Int) - (t.sepIdx : Int))).toNat := by
          have : text.take t.sepIdx = (text.take t.i).take t.sepIdx := by rw [List.take_take, min_eq_left hle]
          rw [this, h1, List.take_append]
          rw [List.take_of_length_le (by omega)]
          congr 2
          omega
        rw [e, List.flatten_append, List.flatten_singleton]
        refine h3.append ?_
        have hk := Kept.separator (ind := ind) hsep Kept.nil
        simpa using (Kept.chars (ind := ind) (sep := c.separator) (fun hm => h2 (List.mem_of_mem_take hm))).append hk
      · simp only at hl
        have hlt' : text.length ≤ t.i := by omega
        omega
  · simp only [Split.Res.running.injEq] at h
    subst h
    refine ⟨fun _ => ⟨d ++ t.line, by simpa using h1, by simp, ?_⟩, fun hl => absurd hl (by simp only; omega)⟩
    rw [List.flatten_append, List.flatten_singleton]
    exact h3.append (Kept.chars h2)

theorem step_inv {c : Split.Cfg} {ind : Option Nat} {text : List Nat} (hind : c.mode = .indicator → ind = some c.indicator) {t : Split.St}
    (hi : SInv ind c.separator text t) (hlt : t.i < text.length) :
    (∀ t', Split.step c text t = .running t' → SInv ind c.separator text t') ∧ ∀ ls, Split.step c text t ≠ .finished ls := by
  have hr : text[t.i]? = some text[t.i] := List.getElem?_eq_getElem hlt
  have hsb : ∀ ls, Split.strictBreak c t ≠ .finished ls := by
    intro ls h
    unfold Split.strictBreak at h
    split at h
    · simp only at h
      split at h <;> cases h
    · cases h
  obtain ⟨d, h1, h2, h3⟩ := hi.run hlt
  have hlen : d.length + t.line.length = t.i := by
    have := congrArg List.length h1
    rw [List.length_take, List.length_append] at this
    omega
  unfold Split.step
  rw [hr]
  simp only
  split
  · split
    · exact ⟨fun t' h => strictBreak_inv hi hlt h, hsb⟩
    · next hm =>
      split
      · next b hb =>
        refine ⟨fun t' h => ?_, fun ls h => by cases h⟩
        simp only [Split.Res.running.injEq] at h
        subst h
        obtain ⟨hb1, hb2⟩ := breakIndex hb
        have hbl : b < t.line.length := (List.getElem?_eq_some_iff.1 hb1).1
        have hi' : t.i - (t.line.length - b) + 1 = d.length + (b + 1) := by omega
        simp only [hi']
        refine ⟨fun _ => ⟨d ++ t.line.take (b + 1), ?_, by simp, ?_⟩, fun hl => absurd hl (by simp only; omega)⟩
        · have : text.take (d.length + (b + 1)) = (text.take t.i).take (d.length + (b + 1)) := by rw [List.take_take, min_eq_left (by omega)]
          simp only [List.append_nil]
          rw [this, h1, List.take_append]
          rw [List.take_of_length_le (by omega)]
          congr 2
          omega
        · rw [List.flatten_append, List.flatten_singleton]
          refine h3.append ?_
          rw [List.take_succ, hb1]
          have hk : Kept ind c.separator [c.indicator] [] := .indicator (hind hm) .nil
          simpa using (Kept.chars (ind := ind) (sep := c.separator) (fun hm => h2 (List.mem_of_mem_take (i := b) hm))).append hk
      · exact ⟨fun t' h => strictBreak_inv hi hlt h, hsb⟩
  · next hex =>
    have htk : text.take (t.i + 1) = d ++ t.line ++ [text[t.i]] := by rw [List.take_succ, h1, hr]; rfl
    split
    · next hnl =>
      refine ⟨fun t' h => ?_, fun ls h => by cases h⟩
      simp only [Split.Res.running.injEq] at h
      subst h
      have hk : Kept ind c.separator (d ++ t.line ++ [text[t.i]]) (t.out ++ [t.line]).flatten := by
        rw [List.flatten_append, List.flatten_singleton]
        have e : Kept ind c.separator [text[t.i]] [] := by rw [show text[t.i] = 10 from hnl]; exact .newline .nil
        simpa using (h3.append (Kept.chars h2)).append e
      refine ⟨fun _ => ⟨d ++ t.line ++ [text[t.i]], by simpa using htk, by simp, hk⟩, fun hl => ?_⟩
      simp only at hl
      rw [← htk, List.take_of_length_le hl] at hk
      exact hk
    · next hnl =>
      refine ⟨fun t' h => ?_, fun ls h => by cases h⟩
      simp only [Split.Res.running.injEq] at h
      subst h
      have h10 : 10 ∉ t.line ++ [text[t.i]] := by
        simp only [List.mem_append, List.mem_singleton, not_or]
        exact ⟨h2, fun e => hnl e.symm⟩
      refine ⟨fun hl => ?_, fun hl => ?_⟩
      · simp only at hl
        rw [if_neg (by omega)]
        exact ⟨d, by rw [htk, List.append_assoc], h10, h3⟩
      · simp only at hl ⊢
        rw [if_pos (by omega), List.flatten_append, List.flatten_singleton]
        have := h3.append (Kept.chars (ind := ind) (sep := c.separator) h10)
        rw [← List.append_assoc, ← htk, List.take_of_length_le hl] at this
        exact this

theorem Kept.mem {ind : Option Nat} {sep t w : List Nat} (h : Kept ind sep t w) : ∀ r ∈ w, r ∈ t ∨ r ∈ sep := by
  induction h with
  | nil => simp
  | newline _ ih => intro r hr; rcases ih r hr with h | h <;> simp [h]
  | char _ _ ih =>
    intro r hr
    rcases List.mem_cons.1 hr with rfl | hr
    · simp
    · rcases ih r hr with h | h <;> simp [h]
  | indicator _ _ ih => intro r hr; rcases ih r hr with h | h <;> simp [h]
  | separator _ _ ih =>
    intro r hr
    rcases List.mem_append.1 hr with hr | hr
    · exact .inr hr
    · exact ih r hr

theorem SInv.line_mem {ind : Option Nat} {sep text : List Nat} {t : Split.St} (h : SInv ind sep text t) (hlt : t.i < text.length) :
    ∀ r ∈ t.line, r ∈ text := by
  obtain ⟨d, h1, -, -⟩ := h.run hlt
  intro r hr
  have : r ∈ text.take t.i := by rw [h1]; simp [hr]
  exact List.mem_of_mem_take this

theorem splitLoop_from {base : Content.Env} {P : Nat → Prop} {w sw : ℚ} {b : BreakOption} {text : List Nat} (hP : ∀ r ∈ text, P r) :
    ∀ (n : Nat) {l l' : Log} {t : Split.St} {lines : List (List Nat)}, SInv (indicatorOf b) b.separator text t →
    splitLoop base w sw b text n l t = some (l', lines) →
    ∃ cs, From base l l' cs ∧ (∀ c ∈ cs, Makes P c) ∧ cs.flatMap texts = [] ∧ Kept (indicatorOf b) b.separator text lines.flatten
  | 0, l, l', t, lines, hi, h => by simp [splitLoop] at h
  | n + 1, l, l', t, lines, hi, h => by
    simp only [splitLoop] at h
    split at h
    · next hn =>
      simp only [Option.some.injEq, Prod.mk.injEq] at h
      obtain ⟨rfl, rfl⟩ := h
      exact ⟨[], From.refl base l, by simp, by simp, hi.fin (List.getElem?_eq_none_iff.1 hn)⟩
    · next r hr =>
      have hlt : t.i < text.length := (List.getElem?_eq_some_iff.1 hr).1
      obtain ⟨⟨a, l1⟩, h1, h⟩ := Option.bind_eq_some_iff.1 h
      obtain ⟨⟨v, l2⟩, h2, h⟩ := Option.bind_eq_some_iff.1 h
      have f12 := (measure_from h1).1.trans (measure_from h2).1
      have hstep := step_inv (c := pass b w sw (a + v)) (ind := indicatorOf b) (text := text) (by
        intro hm
        simp only [pass] at hm
        simp [indicatorOf, hm, pass]) hi hlt
      have m1 : ∀ c ∈ [Typeset.Call.measure t.line] ++ [.measure [r]], Makes P c := by
        intro c hc
        simp only [List.cons_append, List.nil_append, List.mem_cons, List.not_mem_nil, or_false] at hc
        rcases hc with rfl | rfl
        · exact ⟨trivial, fun x hx => hP x (hi.line_mem hlt x hx)⟩
        · exact ⟨trivial, by simpa using hP r (List.mem_of_getElem? hr)⟩
      simp only at h
      split at h
      · next t' ht' =>
        obtain ⟨cs, c1, c2, c3, c4⟩ := splitLoop_from hP n (hstep.1 t' ht') h
        refine ⟨_, f12.trans c1, ?_, ?_, c4⟩
        · intro c hc
          rcases List.mem_append.1 hc with hc | hc
          · exact m1 c hc
          · exact c2 c hc
        · rw [List.flatMap_append, c3]; rfl
      · next ls hls => exact absurd hls (hstep.2 ls)
      · cases h

theorem splitText_from {base : Content.Env} {P : Nat → Prop} {n : Nat} {w : ℚ} {b : BreakOption} {text : List Nat} (ht : text ≠ []) (hP : ∀ r ∈ text, P r)
    (hs : ∀ r ∈ b.separator, P r) {l l' : Log} {lines : List (List Nat)} (h : splitText base n l text w b = some (l', lines)) :
    ∃ cs, From base l l' cs ∧ (∀ c ∈ cs, Makes P c) ∧ cs.flatMap texts = [] ∧ Kept (indicatorOf b) b.separator text lines.flatten := by
  unfold splitText at h
  obtain ⟨⟨a, l1⟩, h1, h⟩ := Option.bind_eq_some_iff.1 h
  obtain ⟨cs, c1, c2, c3, c4⟩ := splitLoop_from hP n (SInv.start _ _ _ ht) h
  refine ⟨_, (measure_from h1).1.trans c1, ?_, by simpa [texts] using c3, c4⟩
  intro c hc
  simp only [List.cons_append, List.nil_append, List.mem_cons] at hc
  rcases hc with rfl | hc
  · exact ⟨trivial, hs⟩
  · exact c2 c hc

theorem optionCalls_makes {P : Nat → Prop} {w h lh x : ℚ} {opt : Content.CellOption} {tr : Option Doc.Tr} : ∀ (lines : List (List Nat)),
    (∀ r ∈ lines.flatten, P r) → (∀ c ∈ optionCalls w h lh x opt tr lines, Makes P c) ∧ (optionCalls w h lh x opt tr lines).flatMap texts = lines.flatten
  | [], _ => by simp [optionCalls]
  | l :: lines, hP => by
    obtain ⟨h1, h2⟩ := optionCalls_makes (w := w) (h := h) (lh := lh) (x := x) (opt := opt) (tr := tr) lines (fun r hr => hP r (by
      simp only [List.flatten_cons, List.mem_append]; exact .inr hr))
    refine ⟨fun c hc => ?_, ?_⟩
    · simp only [optionCalls, List.cons_append, List.nil_append, List.mem_cons] at hc
      rcases hc with rfl | rfl | rfl | hc
      · exact ⟨trivial, fun r hr => hP r (by simp only [List.flatten_cons, List.mem_append]; exact .inl hr)⟩
      · exact ⟨trivial, trivial⟩
      · exact ⟨trivial, trivial⟩
      · exact h1 c hc
    · simp only [optionCalls, List.flatMap_append, h2, List.flatten_cons]
      simp [texts]

theorem multiCellOpt_from {base : Content.Env} {P : Nat → Prop} {n : Nat} {r : Units.Rect} {t : List Nat} {opt : Content.CellOption} {b : BreakOption}
    {tr : Option Doc.Tr} (hP : ∀ r ∈ t, P r) (hs : ∀ r ∈ b.separator, P r) {l l' : Log} (h : multiCellOpt base n l r t opt b tr = some l') :
    ∃ cs, From base l l' cs ∧ (∀ c ∈ cs, Makes P c) ∧ Kept (indicatorOf b) b.separator t (cs.flatMap texts) ∧ l.s.addChars t ≠ none := by
  unfold multiCellOpt at h
  obtain ⟨lh, h1, h⟩ := Option.bind_eq_some_iff.1 h
  obtain ⟨l1, h2, h⟩ := Option.bind_eq_some_iff.1 h
  have ha : l.s.addChars t ≠ none := by
    intro e
    rw [Typeset.St.measureHeight, e] at h1
    cases h1
  by_cases ht : t = []
  · subst ht
    rw [if_pos rfl] at h
    split at h
    · obtain rfl := Option.some.inj h
      refine ⟨_, act_from h2, ?_, by simpa [texts] using Kept.nil, ha⟩
      intro c hc
      simp only [List.mem_singleton] at hc
      subst hc
      exact ⟨trivial, by simp⟩
    · cases h
  · rw [if_neg ht] at h
    obtain ⟨⟨l2, lines⟩, h3, h⟩ := Option.bind_eq_some_iff.1 h
    obtain ⟨cs, c1, c2, c3, c4⟩ := splitText_from ht hP hs h3
    obtain ⟨o1, o2⟩ := optionCalls_makes (P := P) (w := r.w) (h := Content.startHeight r.h lh lines.length) (lh := lh)
      (x := Units.fromPoints base.cfg l.s.prog.content.cur.x) (opt := opt) (tr := tr) lines (fun x hx => by
        rcases c4.mem x hx with h | h
        · exact hP x h
        · exact hs x h)
    refine ⟨_, ((act_from h2).trans c1).trans (acts_from _ h), ?_, ?_, ha⟩
    · intro c hc
      simp only [List.cons_append, List.nil_append, List.mem_cons, List.mem_append] at hc
      rcases hc with rfl | hc | hc
      · exact ⟨trivial, hP⟩
      · exact c2 c hc
      · exact o1 c hc
    · rw [List.flatMap_append, List.flatMap_append, c3, o2]
      simpa [texts] using c4

end Verif.Layout
