import Verif.Lemmas.Layout.Same
import Verif.Lemmas.Layout.Run
import Verif.Props.Split
import Verif.Spec.Column
import Verif.Lemmas.Content.MultiCell
/- Lines are broken by the widths of the caller's font. -/
set_option maxRecDepth 10000
namespace Verif.Layout
open Typeset (texts Loaded Good GoodFace Instead Setting setting accepted Stands Gives Face Measures SpaceFor GoodKern)
open Props (IsScalar)
open Content (BreakOption)

/-! ### Widths -/

/-- A text over characters that a font has a glyph for can be measured. -/
theorem sum_ok {x : Loaded} (hf : GoodFace x.face) (hg : Good x) (space : Int) : ∀ (u : List Nat), (∀ r ∈ u, ∃ g, x.map.val r = some g) →
    ∀ (i : Nat) (left : Nat × Nat), ∃ n, TextRun.sumWidth x.font.run space left (TextRun.withIndex i u) = .ok n
  | [], _, _, _ => ⟨0, rfl⟩
  | r :: u, h, i, left => by
    obtain ⟨g, hm⟩ := h r (by simp)
    obtain ⟨w, w1, -⟩ := Typeset.glyphWidth_ok hf hg.load g
    obtain ⟨n, hn⟩ := sum_ok hf hg space u (fun r hr => h r (by simp [hr])) (i + TextRun.utf8Len r) (r, g)
    refine ⟨w + TextRun.kernBefore x.font.run i r g left + space + n, ?_⟩
    simp only [TextRun.withIndex, TextRun.sumWidth, show x.font.run.map = x.map from rfl, hm, w1, hn]

section
variable {base : Content.Env} {prot : Bool} {ml mt : ℚ}

/-- Every measurement, with the same settings, of a text over the characters of a text added to the font. -/
theorem ruler {l : Log} (hl : Reached base prot ml mt l) (hk : ∀ f, (setting l.calls).face = some f → f.useKerning = true → GoodKern f.file)
    {t out : List Nat} {fonts : Nat → Option Loaded} (ht : ∀ r ∈ t, IsScalar r) (ha : l.s.addChars t = some (fonts, out)) :
    ∃ (x : Loaded) (width : List Nat → Int), (setting l.calls).face = some x.face ∧ GoodFace x.face ∧ Good x ∧ List.Forall₂ (Instead x) t out ∧
      (∀ u, (∀ c ∈ u, c ∈ t ∨ c ∈ out) → Measures x.face (Content.spaceWidth x.font (setting l.calls).size (Units.toPoints base.cfg (setting l.calls).spacing)) none u (width u)) ∧
      ∀ m, Reached base prot ml mt m → setting m.calls = setting l.calls → ∀ u, (∀ c ∈ u, c ∈ t ∨ c ∈ out) → ∀ v, m.s.measureWidth base u = some v →
        v = Units.fromPoints base.cfg (width u * ((setting l.calls).size / 1000)) := by
  obtain ⟨x, x1, x2, x3, x4, -, -⟩ := hl.chars ht ha
  have hin : ∀ c, c ∈ t ∨ c ∈ out → ∃ c', Instead x c c' := by
    rintro c (hc | hc)
    · obtain ⟨j, hj, e⟩ := List.getElem_of_mem hc
      have := (List.forall₂_iff_get.1 x4).2 j hj (by rw [← (List.forall₂_iff_get.1 x4).1]; exact hj)
      simp only [List.get_eq_getElem, e] at this
      exact ⟨_, this⟩
    · obtain ⟨j, hj, e⟩ := List.getElem_of_mem hc
      have := (List.forall₂_iff_get.1 x4).2 j (by rw [(List.forall₂_iff_get.1 x4).1]; exact hj) hj
      simp only [List.get_eq_getElem, e] at this
      obtain ⟨g, hg, -⟩ := this
      exact ⟨c, g, hg, .inl rfl⟩
  have hsc : ∀ c, c ∈ t ∨ c ∈ out → IsScalar c := by
    rintro c (hc | hc)
    · exact ht c hc
    · exact Instead.scalar x3 x4 ht c hc
  choose! d hd using hin
  have all : ∀ u : List Nat, (∀ c ∈ u, c ∈ t ∨ c ∈ out) → List.Forall₂ (Instead x) u (u.map d) := by
    intro u
    induction u with
    | nil => intro _; exact .nil
    | cons c u ih => intro h; exact .cons (hd c (h c (by simp))) (ih fun c hc => h c (by simp [hc]))
  have vals : ∀ {x : Loaded} {t u : List Nat}, List.Forall₂ (Instead x) t u → ∀ r ∈ u, ∃ g, x.map.val r = some g := by
    intro x t u hx r hr
    obtain ⟨j, hj, e⟩ := List.getElem_of_mem hr
    have := (List.forall₂_iff_get.1 hx).2 j (by rw [(List.forall₂_iff_get.1 hx).1]; exact hj) hj
    simp only [List.get_eq_getElem, e] at this
    exact ⟨_, this.choose_spec.1⟩
  have sums : ∀ u : List Nat, (∀ c ∈ u, c ∈ t ∨ c ∈ out) → ∃ n, TextRun.sumWidth x.font.run (Content.spaceWidth x.font (setting l.calls).size
      (Units.toPoints base.cfg (setting l.calls).spacing)) (0, 0) (TextRun.withIndex 0 (u.map d)) = .ok n :=
    fun u hu => sum_ok x2 x3 _ _ (vals (all u hu)) 0 (0, 0)
  choose! width hwidth using sums
  refine ⟨x, width, x1, x2, x3, x4, fun u hu => ?_, fun m hm hs u hu v hv => ?_⟩
  · have := Typeset.sum_measures x2 x3 (hk _ x1) _ u (u.map d) (all u hu) 0 (0, 0) _ (hwidth u hu)
    simpa using this
  · obtain ⟨⟨f, o⟩, a1, a2⟩ := Option.bind_eq_some_iff.1 hv
    obtain ⟨b, b1, b2, b3, b4, b5, b6, b7⟩ := hm.chars (fun c hc => hsc c (hu c hc)) a1
    have he : x.face = b.face := by
      rw [hs, x1] at b1
      exact Option.some.inj b1
    have hi : x.info = b.info := by
      have := x3.load
      rw [he, b3.load] at this
      exact (Except.ok.inj this).symm
    obtain rfl := instead_same x2 he x3 b3 (all u hu) b4
    have hsp : ∀ size cs, Content.spaceWidth x.font size cs = Content.spaceWidth b.font size cs := by
      intro size cs
      simp [Content.spaceWidth, Loaded.font, hi]
    have hsum := sum_same x2 he x3 b3 (Content.spaceWidth x.font (setting l.calls).size (Units.toPoints base.cfg (setting l.calls).spacing))
      (u.map d) (vals (all u hu)) (vals b4) 0 (0, 0)
    rw [hwidth u hu, hsp] at hsum
    simp only [Content.measureTextWidth] at a2
    rw [b5, b6, b7, hs] at a2
    unfold Content.createContent at a2
    rw [← hsum] at a2
    simp only [Option.map_some, Option.some.injEq] at a2
    exact a2.symm

/-! ### SplitTextWithOption -/

/-- The comparisons of the loop, for a function that measures. -/
def measuring (b : BreakOption) (w sw : ℚ) (f : List Nat → ℚ) : Split.Cfg :=
  ⟨b.mode, b.indicator, b.separator, fun line r => decide (f line + f [r] > w), fun line r => decide (f line + f [r] + sw ≤ w)⟩

theorem step_pass {b : BreakOption} {w sw : ℚ} {f : List Nat → ℚ} {text : List Nat} {t : Split.St} {r : Nat} (hr : text[t.i]? = some r) :
    Split.step (pass b w sw (f t.line + f [r])) text t = Split.step (measuring b w sw f) text t := by
  unfold Split.step
  rw [hr]
  rfl

theorem run_finished (c : Split.Cfg) (text : List Nat) (ls : List (List Nat)) : ∀ n, Split.run c text n (.finished ls) = .finished ls
  | 0 => rfl
  | _ + 1 => rfl

theorem splitLoop_run {l0 : Log} {w sw : ℚ} {b : BreakOption} {text : List Nat} {f : List Nat → ℚ} (hP : ∀ r ∈ text, IsScalar r)
    (hf : ∀ m, Reached base prot ml mt m → setting m.calls = setting l0.calls → ∀ u, (∀ c ∈ u, c ∈ text) → ∀ v, m.s.measureWidth base u = some v → v = f u) :
    ∀ (n : Nat) {l l' : Log} {t : Split.St} {lines : List (List Nat)}, Reached base prot ml mt l → setting l.calls = setting l0.calls →
    SInv (indicatorOf b) b.separator text t → splitLoop base w sw b text n l t = some (l', lines) →
    Split.run (measuring b w sw f) text n (.running t) = .finished lines
  | 0, l, l', t, lines, _, _, hi, h => by simp [splitLoop] at h
  | n + 1, l, l', t, lines, hl, hset, hi, h => by
    simp only [splitLoop] at h
    rw [Split.run]
    split at h
    · next hn =>
      simp only [Option.some.injEq, Prod.mk.injEq] at h
      obtain ⟨rfl, rfl⟩ := h
      have : Split.step (measuring b w sw f) text t = .finished t.out := by unfold Split.step; rw [hn]
      rw [this, run_finished]
    · next r hr =>
      have hlt : t.i < text.length := (List.getElem?_eq_some_iff.1 hr).1
      obtain ⟨⟨a, l1⟩, h1, h⟩ := Option.bind_eq_some_iff.1 h
      obtain ⟨⟨v, l2⟩, h2, h⟩ := Option.bind_eq_some_iff.1 h
      have m1 : Makes IsScalar (.measure t.line) := ⟨trivial, fun x hx => hP x (hi.line_mem hlt x hx)⟩
      have m2 : Makes IsScalar (.measure [r]) := ⟨trivial, by simpa using hP r (List.mem_of_getElem? hr)⟩
      have f1 := (measure_from h1).1
      have f2 := (measure_from h2).1
      have r1 : Reached base prot ml mt l1 := hl.makes f1 (by simpa using m1)
      have r2 : Reached base prot ml mt l2 := r1.makes f2 (by simpa using m2)
      have s1 : setting l1.calls = setting l0.calls := (f1.setting (by simpa using m1.1)).trans hset
      have s2 : setting l2.calls = setting l0.calls := (f2.setting (by simpa using m2.1)).trans s1
      have e1 : a = f t.line := hf l hl hset t.line (hi.line_mem hlt) a (measure_from h1).2
      have e2 : v = f [r] := hf l1 r1 s1 [r] (by simpa using List.mem_of_getElem? hr) v (measure_from h2).2
      have hstep := step_inv (c := pass b w sw (a + v)) (ind := indicatorOf b) (text := text) (by
        intro hm
        simp only [pass] at hm
        simp [indicatorOf, hm, pass]) hi hlt
      simp only at h
      have hp := step_pass (b := b) (w := w) (sw := sw) (f := f) hr
      rw [← e1, ← e2] at hp
      split at h
      · next t' ht' =>
        rw [← hp, ht']
        exact splitLoop_run hP hf n r2 s2 (hstep.1 t' ht') h
      · next ls hls => exact absurd hls (hstep.2 ls)
      · cases h

theorem splitLoop_quiet {w sw : ℚ} {b : BreakOption} {text : List Nat} : ∀ (n : Nat) {l l' : Log} {t : Split.St} {lines : List (List Nat)},
    splitLoop base w sw b text n l t = some (l', lines) → ∃ cs, l'.calls = l.calls ++ cs ∧ cs.filterMap Column.inCell = []
  | 0, l, l', t, lines, h => by simp [splitLoop] at h
  | n + 1, l, l', t, lines, h => by
    simp only [splitLoop] at h
    split at h
    · simp only [Option.some.injEq, Prod.mk.injEq] at h
      exact ⟨[], by simp [h.1], rfl⟩
    · next r hr =>
      obtain ⟨⟨a, l1⟩, h1, h⟩ := Option.bind_eq_some_iff.1 h
      obtain ⟨⟨v, l2⟩, h2, h⟩ := Option.bind_eq_some_iff.1 h
      have f12 := (measure_from h1).1.trans (measure_from h2).1
      have e0 : ([Typeset.Call.measure t.line] ++ [Typeset.Call.measure [r]]).filterMap Column.inCell = [] := rfl
      simp only at h
      split at h
      · obtain ⟨cs, c1, c2⟩ := splitLoop_quiet n h
        exact ⟨_, by rw [c1, f12.1, List.append_assoc], by rw [List.filterMap_append, e0, c2]; rfl⟩
      · simp only [Option.some.injEq, Prod.mk.injEq] at h
        exact ⟨_, by rw [← h.1, f12.1], e0⟩
      · cases h

theorem splitText_quiet {n : Nat} {w : ℚ} {b : BreakOption} {text : List Nat} {l l' : Log} {lines : List (List Nat)}
    (h : splitText base n l text w b = some (l', lines)) : ∃ cs, l'.calls = l.calls ++ cs ∧ cs.filterMap Column.inCell = [] := by
  unfold splitText at h
  obtain ⟨⟨a, l1⟩, h1, h⟩ := Option.bind_eq_some_iff.1 h
  obtain ⟨cs, c1, c2⟩ := splitLoop_quiet n h
  exact ⟨_, by rw [c1, (measure_from h1).1.1, List.append_assoc], by rw [List.filterMap_append, c2]; rfl⟩

theorem cells_option {w h lh x : ℚ} {opt : Content.CellOption} {tr : Option Doc.Tr} : ∀ (lines : List (List Nat)),
    (optionCalls w h lh x opt tr lines).filterMap Column.inCell = lines.map fun l => (w, l)
  | [] => rfl
  | l :: lines => by
    simp only [optionCalls, List.filterMap_append, cells_option lines]
    rfl

/-! ### MultiCell -/

theorem lineAndBreak_cells {l l' : Log} {w lh x : ℚ} {line : List Nat} (hP : ∀ r ∈ line, IsScalar r) (h : lineAndBreak base l w lh x line = some l') :
    ∃ cs, From base l l' cs ∧ (∀ c ∈ cs, Makes IsScalar c) ∧ cs.filterMap Column.inCell = [(w, line)] := by
  refine ⟨_, acts_from _ h, ?_, by simp [Column.inCell]⟩
  intro c hc
  simp only [List.mem_cons, List.not_mem_nil, or_false] at hc
  rcases hc with rfl | rfl | rfl
  · exact ⟨trivial, hP⟩
  · exact ⟨trivial, trivial⟩
  · exact ⟨trivial, trivial⟩

theorem multiCellLoop_cells {l0 : Log} {r : Units.Rect} {lh x : ℚ} {S : Nat → Prop} {f : List Nat → ℚ} (hP : ∀ c, S c → IsScalar c)
    (hf : ∀ m, Reached base prot ml mt m → setting m.calls = setting l0.calls → ∀ u, (∀ c ∈ u, S c) → ∀ v, m.s.measureWidth base u = some v → v = f u) :
    ∀ (rest : List Nat) {l l' : Log} {line : List Nat} {n : Nat}, Reached base prot ml mt l → setting l.calls = setting l0.calls →
    (∀ c ∈ line, S c) → (∀ c ∈ rest, S c) → multiCellLoop base r lh x l line (n * lh) rest = some l' →
    ∃ cs, From base l l' cs ∧ (∀ c ∈ cs, Makes IsScalar c) ∧ cs.filterMap Column.inCell =
      (Content.broken (fun a c => decide (f a + f [c] > r.w)) (fun n => decide ((n : ℚ) * lh + lh > r.h)) n line rest).1.map fun a => (r.w, a)
  | [], l, l', line, n, _, _, _, _, h => by
    simp only [multiCellLoop, Option.some.injEq] at h
    subst h
    exact ⟨[], From.refl base l, by simp, by simp [Content.broken]⟩
  | v :: rest, l, l', line, n, hl, hset, hline, hrest, h => by
    simp only [multiCellLoop] at h
    unfold Content.broken
    split at h
    · next hov =>
      obtain rfl := Option.some.inj h
      refine ⟨[], From.refl base l, by simp, ?_⟩
      rw [if_pos (by simpa using hov)]
      rfl
    · next hov =>
      rw [if_neg (by simpa using hov)]
      obtain ⟨⟨a, l1⟩, h1, h⟩ := Option.bind_eq_some_iff.1 h
      obtain ⟨⟨b, l2⟩, h2, h⟩ := Option.bind_eq_some_iff.1 h
      obtain ⟨l3, h3, h⟩ := Option.bind_eq_some_iff.1 h
      have hv : S v := hrest v (by simp)
      have m1 : Makes IsScalar (.measure line) := ⟨trivial, fun c hc => hP c (hline c hc)⟩
      have m2 : Makes IsScalar (.measure [v]) := ⟨trivial, by simpa using hP v hv⟩
      have f1 := (measure_from h1).1
      have f2 := (measure_from h2).1
      have r1 : Reached base prot ml mt l1 := hl.makes f1 (by simpa using m1)
      have r2 : Reached base prot ml mt l2 := r1.makes f2 (by simpa using m2)
      have s1 : setting l1.calls = setting l0.calls := (f1.setting (by simpa using m1.1)).trans hset
      have s2 : setting l2.calls = setting l0.calls := (f2.setting (by simpa using m2.1)).trans s1
      have e1 : a = f line := hf l hl hset line hline a (measure_from h1).2
      have e2 : b = f [v] := hf l1 r1 s1 [v] (by simpa using hv) b (measure_from h2).2
      subst e1 e2
      have m12 : ∀ c ∈ [Typeset.Call.measure line] ++ [.measure [v]], Makes IsScalar c := by
        intro c hc
        simp only [List.cons_append, List.nil_append, List.mem_cons, List.not_mem_nil, or_false] at hc
        rcases hc with rfl | rfl
        · exact m1
        · exact m2
      have e0 : ([Typeset.Call.measure line] ++ [Typeset.Call.measure [v]]).filterMap Column.inCell = [] := rfl
      have go : ∀ {l3 : Log} {cs : List Typeset.Call} {pre line1 : List Nat} {n' : Nat} {pres : List (List Nat)}, From base l2 l3 cs →
          (∀ c ∈ cs, Makes IsScalar c) → cs.filterMap Column.inCell = pres.map (fun a => (r.w, a)) → (∀ c ∈ line1, S c) →
          (if rest = [] then lineAndBreak base l3 r.w lh x line1 else multiCellLoop base r lh x l3 line1 (n' * lh) rest) = some l' →
          ∃ ds, From base l l' ds ∧ (∀ c ∈ ds, Makes IsScalar c) ∧ ds.filterMap Column.inCell =
            (if rest = [] then (pres ++ [line1], []) else
              (pres ++ (Content.broken (fun a c => decide (f a + f [c] > r.w)) (fun n => decide ((n : ℚ) * lh + lh > r.h)) n' line1 rest).1,
                (Content.broken (fun a c => decide (f a + f [c] > r.w)) (fun n => decide ((n : ℚ) * lh + lh > r.h)) n' line1 rest).2)).1.map fun a => (r.w, a) := by
        intro l3 cs pre line1 n' pres g1 g2 g3 g4 g5
        by_cases he : rest = []
        · rw [if_pos he] at g5 ⊢
          obtain ⟨ds, d1, d2, d3⟩ := lineAndBreak_cells (fun c hc => hP c (g4 c hc)) g5
          refine ⟨_, ((f1.trans f2).trans g1).trans d1, ?_, ?_⟩
          · intro c hc
            simp only [List.mem_append] at hc
            rcases hc with (hc | hc) | hc
            · exact m12 c (by simpa using hc)
            · exact g2 c hc
            · exact d2 c hc
          · rw [List.filterMap_append, List.filterMap_append, g3, d3, e0]; simp
        · rw [if_neg he] at g5 ⊢
          obtain ⟨ds, d1, d2, d3⟩ := multiCellLoop_cells hP hf rest (r2.makes g1 g2) ((g1.setting fun c hc => (g2 c hc).1).trans s2) g4
            (fun c hc => hrest c (by simp [hc])) g5
          refine ⟨_, ((f1.trans f2).trans g1).trans d1, ?_, ?_⟩
          · intro c hc
            simp only [List.mem_append] at hc
            rcases hc with (hc | hc) | hc
            · exact m12 c (by simpa using hc)
            · exact g2 c hc
            · exact d2 c hc
          · rw [List.filterMap_append, List.filterMap_append, g3, d3, e0]; simp
      simp only at h3 h
      by_cases hb : f line + f [v] > r.w
      · simp only [hb, if_true, decide_true] at h3 h ⊢
        obtain ⟨cs, c1, c2, c3⟩ := lineAndBreak_cells (fun c hc => hP c (hline c hc)) h3
        refine go (pre := []) (n' := n + 1) (pres := [line]) c1 c2 (by simpa using c3) (by simpa using hv) ?_
        rw [← h]
        push_cast
        rw [add_mul, one_mul]
      · simp only [hb, if_false, decide_false, Bool.false_eq_true] at h3 h ⊢
        obtain rfl := Option.some.inj h3
        refine go (pre := []) (n' := n) (pres := []) (From.refl base _) (by simp) (by simp) ?_ h
        intro c hc
        rcases List.mem_append.1 hc with hc | hc
        · exact hline c hc
        · rw [List.mem_singleton.1 hc]; exact hv

end

end Verif.Layout
