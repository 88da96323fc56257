import Verif.Lemmas.Layout.Answer
import Verif.Props.Column
import Mathlib.Data.List.Induction
/- C82: measuring and wrapping do not panic. -/
set_option maxRecDepth 10000
namespace Verif.Props
open Typeset (Setting setting startsPage needsFont needsPage Possible Face GoodFace GoodKern)
open Layout (Has Block)
open Column

theorem steps_snoc {base : Content.Env} {s : Typeset.St} (pre : List Typeset.Call) (c : Typeset.Call) :
    Typeset.steps base s (pre ++ [c]) = (Typeset.steps base s pre).bind fun p => (Typeset.step base p.1 c).map fun q => (q.1, p.2 ++ q.2.toList) := by
  rw [Layout.steps_append]
  cases Typeset.steps base s pre with
  | none => rfl
  | some p =>
    simp only [Option.bind_some, Typeset.steps]
    cases Typeset.step base p.1 c <;> simp

/-- **C82** a whole program runs without a panic exactly if every call finds the font and the page it needs: a font chosen by an earlier
SetFont, a page added before. -/
theorem program_runs {base : Content.Env} {prot : Bool} {ml mt : ℚ} : ∀ (prog : List Typeset.Call), (∀ c ∈ prog, Possible c) →
    (∀ f st face, Typeset.Call.addFont f st face ∈ prog → Typeset.accepted face = true → GoodFace face ∧ Doc.noUnderline st = st) →
    (Typeset.steps base (Typeset.start prot ml mt) prog ≠ none ↔
      ∀ pre c post, prog = pre ++ c :: post → (needsFont c = true → (setting pre).face ≠ none) ∧ (needsPage c = true → pre.countP startsPage ≠ 0)) := by
  intro prog
  induction prog using List.reverseRecOn with
  | nil => intro _ _; simp [Typeset.steps]
  | append_singleton pre c ih =>
    intro hp hf
    have ih := ih (fun c hc => hp c (by simp [hc])) (fun f st face hc => hf f st face (by simp [hc]))
    rw [steps_snoc]
    constructor
    · intro h pre' c' post e
      cases hs : Typeset.steps base (Typeset.start prot ml mt) pre with
      | none => simp [hs] at h
      | some p =>
        have ih := ih.1 (by simp [hs])
        rcases List.eq_nil_or_concat post with rfl | ⟨post', d, rfl⟩
        · obtain ⟨rfl, hc⟩ := List.append_inj' e rfl
          obtain rfl : c = c' := by simpa using hc
          have hn := call_panics hs (fun c hc => (hp c (by simp [hc])).1) (fun f st face hc => hf f st face (by simp [hc])) c (hp c (by simp))
          have hne : Typeset.step base p.1 c ≠ none := by
            intro hx
            simp [hs, hx] at h
          rw [Ne, hn] at hne
          exact ⟨fun a b => hne (.inl ⟨a, b⟩), fun a b => hne (.inr ⟨a, b⟩)⟩
        · rw [List.concat_eq_append, ← List.cons_append, ← List.append_assoc] at e
          obtain ⟨e1, -⟩ := List.append_inj' e rfl
          exact ih pre' c' post' e1
    · intro h
      have hpre := ih.2 fun pre' c' post e => h pre' c' (post ++ [c]) (by rw [e]; simp)
      obtain ⟨p, hs⟩ := Option.ne_none_iff_exists'.1 hpre
      have hn := call_panics hs (fun c hc => (hp c (by simp [hc])).1) (fun f st face hc => hf f st face (by simp [hc])) c (hp c (by simp))
      have hc := h pre c [] rfl
      have hne : Typeset.step base p.1 c ≠ none := by
        rw [Ne, hn]
        rintro (⟨a, b⟩ | ⟨a, b⟩)
        · exact hc.1 a b
        · exact hc.2 a b
      obtain ⟨q, hq⟩ := Option.ne_none_iff_exists'.1 hne
      simp [hs, hq]

/-- **C82** the measuring calls answer exactly if there is a current font. -/
theorem measuring_panics {base : Content.Env} {prot : Bool} {ml mt : ℚ} {prog : List Typeset.Call} {s : Typeset.St} {calls : List Program.Call}
    (hrun : Typeset.steps base (Typeset.start prot ml mt) prog = some (s, calls)) (hok : ∀ c ∈ prog, c.Ok)
    (hfaces : ∀ f st face, Typeset.Call.addFont f st face ∈ prog → Typeset.accepted face = true → GoodFace face ∧ Doc.noUnderline st = st)
    (t : List Nat) (ht : ∀ r ∈ t, IsScalar r) :
    (s.measureWidth base t = none ↔ (setting prog).face = none) ∧ (s.measureHeight base t = none ↔ (setting prog).face = none) := by
  have hr : Layout.Reached base prot ml mt ⟨s, prog, calls⟩ := ⟨hrun, hok, hfaces⟩
  by_cases h : (setting prog).face = none
  · have hn : s.addChars t = none := (Typeset.addChars_panic hr t).2 h
    simp [Typeset.St.measureWidth, Typeset.St.measureHeight, hn, h]
  · obtain ⟨⟨w, h1⟩, v, h2⟩ := Layout.width_some ⟨hr, h⟩ ht
    have h1 : s.measureWidth base t = some w := h1
    have h2 : s.measureHeight base t = some v := h2
    simp [h1, h2, h]

section
variable {base : Content.Env} {prot : Bool} {ml mt : ℚ} {n : Nat} {prog : List Layout.Call} {s : Layout.St}

theorem Typed.pages (h : Typed base prot ml mt n prog s) : s.log.calls.countP startsPage = prog.countP Layout.isPage := by
  have hP : ∀ b, (Has prog b ∨ b = .basic (.other (.plain (.br 0)))) → Layout.Fine b := by
    rintro b (hb | rfl)
    · exact ⟨h.texts b hb, fun f st face e => h.subst f st face (e ▸ hb), fun f st face e ha =>
        ⟨(h.faces f st face (e ▸ hb) ha).1, (h.faces f st face (e ▸ hb) ha).2.2⟩⟩
    · exact ⟨by simp [Block.texts], (fun _ _ _ e => by cases e), (fun _ _ _ e => by cases e)⟩
  obtain ⟨cs, ps, h1, h2, h3, h4, h5⟩ := Layout.steps_made hP ⟨_, .inr rfl⟩ prog (s := Layout.start prot ml mt)
    (Layout.reached_start (base := base)) (by simp [Layout.start]) (by simp [Layout.start]) (fun b hb => .inl hb) h.run
  rw [← h5, h1.1]
  simp [Layout.start]

/-- **C82** MultiCell returns, whatever the text and the rectangle, once there are a page and a font; IsFitMultiCell needs the font only.
Without a font both panic. -/
theorem multi_cell_returns (h : Typed base prot ml mt n prog s) (r : Units.Rect) (t : List Nat) (ht : ∀ c ∈ t, IsScalar c) :
    ((setting s.log.calls).face ≠ none → prog.countP Layout.isPage ≠ 0 → Layout.multiCell base s.log r t ≠ none) ∧
    (Layout.isFit base s.log r t = none ↔ (setting s.log.calls).face = none) ∧
    ((setting s.log.calls).face = none → Layout.multiCell base s.log r t = none) := by
  have hr := h.reached.1
  refine ⟨fun hf hp => ?_, ?_, fun hf => ?_⟩
  · have hy : Layout.Ready base prot ml mt s.log := ⟨hr, hf⟩
    rw [← h.pages] at hp
    obtain ⟨-, lh, h1⟩ := Layout.width_some hy ht
    obtain ⟨p, h2, h3⟩ := Layout.chars_some hy ht
    obtain ⟨l1, a1, a2, a3, -⟩ := Layout.act_some hy (c := .measure t) ⟨trivial, ht⟩ ⟨ht, trivial⟩ (by simp [needsPage])
    obtain ⟨l', h4⟩ := Layout.multiCellLoop_some (r := r) (lh := lh) (x := Units.fromPoints base.cfg s.log.s.prog.content.cur.x) p.2 (line := []) (total := 0)
      a2 (by rw [a3]; exact hp) (by simp) h3
    simp [Layout.multiCell, h1, h2, a1, h4]
  · constructor
    · intro hn
      by_contra hf
      have hy : Layout.Ready base prot ml mt s.log := ⟨hr, hf⟩
      obtain ⟨-, lh, h1⟩ := Layout.width_some hy ht
      obtain ⟨p, h2, h3⟩ := Layout.chars_some hy ht
      obtain ⟨l1, a1, a2, a3, -⟩ := Layout.act_some hy (c := .measure t) ⟨trivial, ht⟩ ⟨ht, trivial⟩ (by simp [needsPage])
      obtain ⟨q, h4⟩ := Layout.fitLoop_some (r := r) (lh := lh) p.2 (line := []) (total := 0) a2 (by simp) h3
      simp [Layout.isFit, h1, h2, a1, h4] at hn
    · intro hf
      have hn := (Typeset.addChars_panic hr t).2 hf
      simp [Layout.isFit, Typeset.St.measureHeight, hn]
  · have hn := (Typeset.addChars_panic hr t).2 hf
    simp [Layout.multiCell, Typeset.St.measureHeight, hn]

/-- **C82** MultiCellWithOption without a separator returns, once there are a page and a font, if every character of the text is no wider
than the rectangle (MeasureTextWidth); otherwise it may not return (`split_terminates_iff`). -/
theorem multi_cell_option_returns (h : Typed base prot ml mt n prog s) (r : Units.Rect) (t : List Nat) (opt : Content.CellOption) (b : Content.BreakOption)
    (tr : Option Doc.Tr) (ht : ∀ c ∈ t, IsScalar c) (hne : t ≠ []) (hsep : b.separator = []) (hf : (setting s.log.calls).face ≠ none)
    (hp : prog.countP Layout.isPage ≠ 0) (hfit : ∀ c ∈ t, c ≠ 10 → ∀ w, s.log.s.measureWidth base [c] = some w → w ≤ r.w) :
    ∃ k, Layout.multiCellOpt base k s.log r t opt b tr ≠ none := by
  have hr := h.reached.1
  have hy : Layout.Ready base prot ml mt s.log := ⟨hr, hf⟩
  rw [← h.pages] at hp
  obtain ⟨-, lh, h1⟩ := Layout.width_some hy ht
  obtain ⟨l1, a1, a2, a3, a4⟩ := Layout.act_some hy (c := .measure t) ⟨trivial, ht⟩ ⟨ht, trivial⟩ (by simp [needsPage])
  obtain ⟨sw, l2, b1, b5, b2, b3, b4⟩ := Layout.measure_some a2 (t := b.separator) (by simp [hsep])
  have hw : ∀ m, Layout.Reached base prot ml mt m → setting m.calls = setting s.log.calls → ∀ u, (∀ c ∈ u, c ∈ t) → ∀ v, m.s.measureWidth base u = some v →
      v = (s.log.s.measureWidth base u).getD 0 := by
    intro m hm hs u hu v hv
    obtain ⟨⟨w, hw⟩, -⟩ := Layout.width_some hy (t := u) (fun c hc => ht c (hu c hc))
    rw [hw, Option.getD_some]
    exact Layout.width_same hm hr hs (fun c hc => ht c (hu c hc)) hv hw
  have h0 : (s.log.s.measureWidth base []).getD 0 = 0 := by
    obtain ⟨⟨w, hw⟩, -⟩ := Layout.width_some hy (t := []) (by simp)
    rw [hw, Option.getD_some]
    obtain ⟨⟨fonts, out⟩, c1, c2⟩ := Option.bind_eq_some_iff.1 hw
    obtain ⟨x, -, x2, x3, x4, x5, -⟩ := hr.chars (by simp) c1
    cases x4
    simp only [Content.measureTextWidth, Content.createContent, TextRun.withIndex, TextRun.sumWidth] at c2
    simp [Units.fromPoints] at c2
    exact c2.symm
  have room : Split.Roomy (Layout.measuring b r.w sw (fun u => (s.log.s.measureWidth base u).getD 0)) t := by
    have hs : (Layout.measuring b r.w sw (fun u => (s.log.s.measureWidth base u).getD 0)).hasSep = false := by
      simp [Split.Cfg.hasSep, Layout.measuring, hsep]
    refine ⟨fun c hc hn => ?_, ?_, ?_, ?_⟩
    · obtain ⟨⟨w, hw⟩, -⟩ := Layout.width_some hy (t := [c]) (by simpa using ht c hc)
      have := hfit c hc hn w hw
      simp only [Layout.measuring, h0, hw, Option.getD_some, zero_add, decide_eq_false_iff_not, not_lt]
      exact this
    all_goals intro hx; rw [hs] at hx; cases hx
  obtain ⟨k, lines, hk⟩ := Split.run_terminates room _ 0 {} (Split.Pos.new rfl rfl (Nat.zero_le _)) (by simp) (Nat.le_refl _)
  obtain ⟨l3, c1, c2, c3⟩ := Layout.splitLoop_some (l0 := s.log) (w := r.w) (sw := sw) (b := b) ht hw k b2 (b4.trans a4) (Layout.SInv.start _ _ _ hne) hk
  have hret : Split.Returns (Layout.measuring b r.w sw (fun u => (s.log.s.measureWidth base u).getD 0)) t lines := ⟨hne, k, hk⟩
  have hsub := split_only_removes _ (by simpa [Layout.measuring] using hsep) t lines hret
  have hmk := (Layout.optionCalls_makes (P := IsScalar) (w := r.w) (h := Content.startHeight r.h lh lines.length) (lh := lh)
    (x := Units.fromPoints base.cfg s.log.s.prog.content.cur.x) (opt := opt) (tr := tr) lines (fun c hc => ht c (hsub.subset hc))).1
  have hpos : ∀ {w h lh x : ℚ} {opt : Content.CellOption} {tr : Option Doc.Tr} (lines : List (List Nat)), (∀ c ∈ lines.flatten, IsScalar c) →
      ∀ c ∈ Layout.optionCalls w h lh x opt tr lines, Possible c := by
    intro w h lh x opt tr lines
    induction lines with
    | nil => intro _ c hc; simp [Layout.optionCalls] at hc
    | cons l lines ih =>
      intro hl c hc
      simp only [Layout.optionCalls, List.cons_append, List.nil_append, List.mem_cons] at hc
      rcases hc with rfl | rfl | rfl | hc
      · exact ⟨fun c hc => hl c (by simp [hc]), trivial⟩
      · exact (Layout.possible_br _).2
      · exact (Layout.possible_setX _).2
      · exact ih (fun c hc => hl c (by simp only [List.flatten_cons, List.mem_append]; exact .inr hc)) c hc
  obtain ⟨l4, d1, -⟩ := Layout.acts_some _ c2 (fun c hc => ⟨hmk c hc, hpos lines (fun c hc => ht c (hsub.subset hc)) c hc⟩) (by rw [c3, b3, a3]; exact hp)
  refine ⟨k, ?_⟩
  simp [Layout.multiCellOpt, h1, a1, hne, Layout.splitText, b1, c1, d1]

end

end Verif.Props
