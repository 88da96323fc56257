import Verif.Lemmas.Layout.Same
/- If IsFitMultiCell answers true, MultiCell writes the whole text. -/
set_option maxRecDepth 10000
namespace Verif.Layout
open Typeset (texts Loaded Good GoodFace Instead Setting setting accepted Stands Gives Face)
open Props (IsScalar)

section
variable {base : Content.Env} {prot : Bool} {ml mt : ℚ}

theorem measure_makes {P : Nat → Prop} {line : List Nat} {v : Nat} (hl : ∀ r ∈ line, P r) (hv : P v) :
    ∀ c ∈ [Typeset.Call.measure line, .measure [v]], Makes P c := by
  intro c hc
  simp only [List.mem_cons, List.not_mem_nil, or_false] at hc
  rcases hc with rfl | rfl
  · exact ⟨trivial, hl⟩
  · exact ⟨trivial, by simpa using hv⟩

theorem fitLoop_from {P : Nat → Prop} {r : Units.Rect} {lh : ℚ} : ∀ (rest : List Nat) {l l' : Log} {line : List Nat} {total : ℚ} {b : Bool},
    (∀ r ∈ line, P r) → (∀ r ∈ rest, P r) → fitLoop base r lh l line total rest = some (b, l') →
    ∃ cs, From base l l' cs ∧ (∀ c ∈ cs, Makes P c) ∧ cs.flatMap texts = []
  | [], l, l', line, total, b, _, _, h => by
    simp only [fitLoop, Option.some.injEq, Prod.mk.injEq] at h
    obtain ⟨-, rfl⟩ := h
    exact ⟨[], From.refl base l, by simp, by simp⟩
  | v :: rest, l, l', line, total, b, hl, hr, h => by
    simp only [fitLoop] at h
    split at h
    · simp only [Option.some.injEq, Prod.mk.injEq] at h
      obtain ⟨-, rfl⟩ := h
      exact ⟨[], From.refl base l, by simp, by simp⟩
    · obtain ⟨⟨a, l1⟩, h1, h⟩ := Option.bind_eq_some_iff.1 h
      obtain ⟨⟨b', l2⟩, h2, h⟩ := Option.bind_eq_some_iff.1 h
      have hv : P v := hr v (by simp)
      have hlv : ∀ z ∈ (if a + b' > r.w then [] else line) ++ [v], P z := by
        intro z hr'
        rcases List.mem_append.1 hr' with hr' | hr'
        · split at hr'
          · simp at hr'
          · exact hl z hr'
        · obtain rfl := List.mem_singleton.1 hr'
          exact hv
      obtain ⟨cs, c1, c2, c3⟩ := fitLoop_from rest hlv (fun r hr' => hr r (by simp [hr'])) h
      refine ⟨_, ((measure_from h1).1.trans (measure_from h2).1).trans c1, ?_, by simp [List.flatMap_append, texts, c3]⟩
      intro c hc
      rcases List.mem_append.1 hc with hc | hc
      · exact measure_makes hl hv c (by simpa using hc)
      · exact c2 c hc

/-- The two loops make the same decisions. -/
theorem loop_all {r : Units.Rect} {lh x : ℚ} : ∀ (rest : List Nat) {l l' m m' : Log} {line : List Nat} {total : ℚ},
    Reached base prot ml mt l → Reached base prot ml mt m → setting l.calls = setting m.calls → (∀ r ∈ line, IsScalar r) → (∀ r ∈ rest, IsScalar r) →
    rest ≠ [] → fitLoop base r lh l line total rest = some (true, l') → multiCellLoop base r lh x m line total rest = some m' →
    ∃ cs, From base m m' cs ∧ (∀ c ∈ cs, Makes IsScalar c) ∧ cs.flatMap texts = line ++ rest
  | [], _, _, _, _, _, _, _, _, _, _, _, hne, _, _ => absurd rfl hne
  | v :: rest, l, l', m, m', line, total, hl, hm, hs, hline, hrest, _, hf, hc => by
    simp only [fitLoop] at hf
    simp only [multiCellLoop] at hc
    by_cases ht : total + lh > r.h
    · rw [if_pos ht] at hf
      simp at hf
    · rw [if_neg ht] at hf hc
      obtain ⟨⟨a, l1⟩, f1, hf⟩ := Option.bind_eq_some_iff.1 hf
      obtain ⟨⟨b, l2⟩, f2, hf⟩ := Option.bind_eq_some_iff.1 hf
      obtain ⟨⟨a', m1⟩, c1, hc⟩ := Option.bind_eq_some_iff.1 hc
      obtain ⟨⟨b', m2⟩, c2, hc⟩ := Option.bind_eq_some_iff.1 hc
      obtain ⟨m3, c3, hc⟩ := Option.bind_eq_some_iff.1 hc
      simp only at c3 hc hf c2 f2
      have hv : IsScalar v := hrest v (by simp)
      have mk1 : ∀ c ∈ [Typeset.Call.measure line], Makes IsScalar c := fun c hc => measure_makes hline hv c (by simp at hc; simp [hc])
      have mk2 : ∀ c ∈ [Typeset.Call.measure [v]], Makes IsScalar c := fun c hc => measure_makes hline hv c (by simp at hc; simp [hc])
      have hl1 := hl.makes (measure_from f1).1 mk1
      have hl2 := hl1.makes (measure_from f2).1 mk2
      have hm1 := hm.makes (measure_from c1).1 mk1
      have hm2 := hm1.makes (measure_from c2).1 mk2
      have s1 : setting l1.calls = setting m1.calls := by
        rw [(measure_from f1).1.setting (fun c hc => (mk1 c hc).1), (measure_from c1).1.setting (fun c hc => (mk1 c hc).1), hs]
      have s2 : setting l2.calls = setting m2.calls := by
        rw [(measure_from f2).1.setting (fun c hc => (mk2 c hc).1), (measure_from c2).1.setting (fun c hc => (mk2 c hc).1), s1]
      obtain rfl := width_same hl hm hs hline (measure_from f1).2 (measure_from c1).2
      obtain rfl := width_same hl1 hm1 s1 (t := [v]) (by simpa using hv) (measure_from f2).2 (measure_from c2).2
      have m12 := (measure_from c1).1.trans (measure_from c2).1
      have k12 : ∀ c ∈ [Typeset.Call.measure line] ++ [.measure [v]], Makes IsScalar c := fun c hc => measure_makes hline hv c (by simpa using hc)
      by_cases hb : a + b > r.w
      · simp only [hb, if_true, List.nil_append] at hf c3 hc
        obtain ⟨ds, d1, d2, d3⟩ := lineAndBreak_from hline c3
        have hv1 : ∀ r ∈ [v], IsScalar r := by simpa using hv
        by_cases he : rest = []
        · subst he
          rw [if_pos rfl] at hc
          obtain ⟨es, e1, e2, e3⟩ := lineAndBreak_from hv1 hc
          refine ⟨_, (m12.trans d1).trans e1, ?_, by simp [List.flatMap_append, texts, d3, e3]⟩
          intro c hc
          simp only [List.append_assoc] at hc
          rcases List.mem_append.1 (by simpa using hc : c ∈ ([Typeset.Call.measure line] ++ [.measure [v]]) ++ (ds ++ es)) with hc | hc
          · exact k12 c hc
          · rcases List.mem_append.1 hc with hc | hc
            · exact d2 c hc
            · exact e2 c hc
        · rw [if_neg he] at hc
          simp only [he, if_false, add_zero] at hf
          obtain ⟨es, e1, e2, e3⟩ := loop_all rest hl2 (hm2.makes d1 d2) (s2.trans (d1.setting (fun c hc => (d2 c hc).1)).symm) hv1
            (fun r hr => hrest r (by simp [hr])) he hf hc
          refine ⟨_, (m12.trans d1).trans e1, ?_, by simp [List.flatMap_append, texts, d3, e3]⟩
          intro c hc
          rcases List.mem_append.1 (by simpa using hc : c ∈ ([Typeset.Call.measure line] ++ [.measure [v]]) ++ (ds ++ es)) with hc | hc
          · exact k12 c hc
          · rcases List.mem_append.1 hc with hc | hc
            · exact d2 c hc
            · exact e2 c hc
      · simp only [hb, if_false] at hf c3 hc
        obtain rfl := Option.some.inj c3
        have hlv : ∀ r ∈ line ++ [v], IsScalar r := by
          intro r hr
          rcases List.mem_append.1 hr with hr | hr
          · exact hline r hr
          · obtain rfl := List.mem_singleton.1 hr
            exact hv
        by_cases he : rest = []
        · subst he
          rw [if_pos rfl] at hc
          obtain ⟨es, e1, e2, e3⟩ := lineAndBreak_from hlv hc
          refine ⟨_, m12.trans e1, ?_, by simp [List.flatMap_append, texts, e3]⟩
          intro c hc
          rcases List.mem_append.1 hc with hc | hc
          · exact k12 c hc
          · exact e2 c hc
        · rw [if_neg he] at hc
          simp only [he, if_false, add_zero] at hf
          obtain ⟨es, e1, e2, e3⟩ := loop_all rest hl2 hm2 s2 hlv (fun r hr => hrest r (by simp [hr])) he hf hc
          refine ⟨_, m12.trans e1, ?_, by simp [List.flatMap_append, texts, e3]⟩
          intro c hc
          rcases List.mem_append.1 hc with hc | hc
          · exact k12 c hc
          · exact e2 c hc

/-- IsFitMultiCell only measures. -/
theorem isFit_from {l l' : Log} {r : Units.Rect} {t : List Nat} {b : Bool} (hl : Reached base prot ml mt l) (ht : ∀ r ∈ t, IsScalar r)
    (h : isFit base l r t = some (b, l')) : ∃ cs, From base l l' cs ∧ (∀ c ∈ cs, Makes IsScalar c) ∧ cs.flatMap texts = [] := by
  unfold isFit at h
  obtain ⟨lh, h1, h⟩ := Option.bind_eq_some_iff.1 h
  obtain ⟨⟨fonts, out⟩, h2, h⟩ := Option.bind_eq_some_iff.1 h
  obtain ⟨l1, h3, h⟩ := Option.bind_eq_some_iff.1 h
  obtain ⟨x, -, -, x3, x4, -⟩ := hl.chars ht h2
  obtain ⟨cs, c1, c2, c3⟩ := fitLoop_from (P := IsScalar) out (by simp) (Instead.scalar x3 x4 ht) h
  refine ⟨_, (act_from h3).trans c1, ?_, by simpa [texts] using c3⟩
  intro c hc
  simp only [List.cons_append, List.nil_append, List.mem_cons] at hc
  rcases hc with rfl | hc
  · exact ⟨trivial, ht⟩
  · exact c2 c hc

/-- If it answers true, MultiCell writes the text as `AddChars` returns it. -/
theorem fits_all {l l' m : Log} {r : Units.Rect} {t : List Nat} (hl : Reached base prot ml mt l) (ht : ∀ r ∈ t, IsScalar r)
    (h : isFit base l r t = some (true, l')) (hm : multiCell base l' r t = some m) :
    ∃ fonts out cs, l.s.addChars t = some (fonts, out) ∧ From base l m cs ∧ (∀ c ∈ cs, Makes IsScalar c) ∧ cs.flatMap texts = out := by
  obtain ⟨cs, c1, c2, c3⟩ := isFit_from hl ht h
  have hl' := hl.makes c1 c2
  have hs := c1.setting (fun c hc => (c2 c hc).1)
  unfold isFit at h
  obtain ⟨lh, h1, h⟩ := Option.bind_eq_some_iff.1 h
  obtain ⟨⟨fonts, out⟩, h2, h⟩ := Option.bind_eq_some_iff.1 h
  obtain ⟨l1, h3, h⟩ := Option.bind_eq_some_iff.1 h
  obtain ⟨lh', g1, hm⟩ := Option.bind_eq_some_iff.1 hm
  obtain ⟨⟨fonts', out'⟩, g2, hm⟩ := Option.bind_eq_some_iff.1 hm
  obtain ⟨m1, g3, hm⟩ := Option.bind_eq_some_iff.1 hm
  obtain rfl := height_same hl hl' hs.symm ht h1 g1
  obtain rfl := (create_same hl hl' hs.symm ht h2 g2).1
  obtain ⟨x, -, -, x3, x4, -⟩ := hl.chars ht h2
  have hmk : ∀ c ∈ [Typeset.Call.measure t], Makes IsScalar c := by
    intro c hc
    obtain rfl := List.mem_singleton.1 hc
    exact ⟨trivial, ht⟩
  by_cases ho : out = []
  · subst ho
    simp only [multiCellLoop, Option.some.injEq] at hm
    subst hm
    refine ⟨fonts, [], _, h2, c1.trans (act_from g3), ?_, by simp [List.flatMap_append, c3, texts]⟩
    intro c hc
    rcases List.mem_append.1 hc with hc | hc
    · exact c2 c hc
    · exact hmk c hc
  · have s1 : setting l1.calls = setting m1.calls := by
      rw [(act_from h3).setting (fun c hc => (hmk c hc).1), (act_from g3).setting (fun c hc => (hmk c hc).1), hs]
    obtain ⟨es, e1, e2, e3⟩ := loop_all out (hl.makes (act_from h3) hmk) (hl'.makes (act_from g3) hmk) s1 (by simp) (Instead.scalar x3 x4 ht) ho h hm
    refine ⟨fonts, out, _, h2, (c1.trans (act_from g3)).trans e1, ?_, by simp [List.flatMap_append, c3, texts, e3]⟩
    intro c hc
    rcases List.mem_append.1 hc with hc | hc
    · rcases List.mem_append.1 hc with hc | hc
      · exact c2 c hc
      · exact hmk c hc
    · exact e2 c hc

end

end Verif.Layout
