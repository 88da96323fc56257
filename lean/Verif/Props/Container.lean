import Verif.Lemmas.Container
/- C44: documents that share fonts through a container. -/
namespace Verif.Props
open Container ContainerSpec TTF
variable {F K : Type}

theorem run_cons (w : World F K) (op : Op F K) (ops : List (Op F K)) : run w (op :: ops) = run (step w op) ops := rfl

theorem run_wf {w : World F K} (hw : WF w) (ops : List (Op F K)) : WF (run w ops) := by
  induction ops generalizing w with
  | nil => exact hw
  | cons op ops ih => exact ih (step_ok hw op).1

theorem step_same_container {w w' : World F K} (h : w.container = w'.container) (op : Op F K) : (step w op).container = (step w' op).container := by
  by_cases hd : op.doc = none
  · cases op <;> simp only [Op.doc, reduceCtorEq] at hd
    simp only [step, h]
  · rw [step_container w op hd, step_container w' op hd, h]

theorem isolated_from {d : Nat} (ops : List (Op F K)) : ∀ {w w' : World F K}, WF w → WF w' → w.container = w'.container →
    view w d = view w' d → view (run w ops) d = view (run w' (ops.filter (concerns d))) d := by
  induction ops with
  | nil => intro w w' _ _ _ h; exact h
  | cons op ops ih =>
    intro w w' hw hw' hc hv
    rw [run_cons]
    have s := step_ok hw op
    by_cases hd : concerns d op = true
    · rw [List.filter_cons_of_pos hd, run_cons]
      have s' := step_ok hw' op
      refine ih s.1 s'.1 (step_same_container hc op) ?_
      rw [s.2, s'.2, hc, hv]
    · rw [List.filter_cons_of_neg hd]
      simp only [concerns, Bool.or_eq_true, beq_iff_eq, not_or] at hd
      refine ih s.1 hw' (by rw [step_container w op hd.1, hc]) ?_
      rw [s.2, if_neg hd.2, hv]

/-- **C44** Whatever happens to other documents, and however the calls (even the single steps of `AddChars`) are interleaved:
the fonts of a document, the characters it uses, its kerning functions, and the texts its calls return are those of the same
calls on this document and on the container alone. -/
theorem container_isolated (ops : List (Op F K)) (d : Nat) :
    view (run World.empty ops) d = view (run World.empty (ops.filter (concerns d))) d :=
  isolated_from ops wf_empty wf_empty rfl rfl

/-- **C44** No call on a document changes the container: a document that loads the font later finds it as it was stored. -/
theorem container_unchanged (w : World F K) (ops : List (Op F K)) (h : ∀ op ∈ ops, op.doc ≠ none) : (run w ops).container = w.container := by
  induction ops generalizing w with
  | nil => rfl
  | cons op ops ih =>
    rw [run_cons, ih _ fun o ho => h o (by simp [ho])]
    exact step_container w op (h op (by simp))

/-- **C44** After any history, a font loaded from the container starts with no characters used and no kerning function; the
document's other fonts stay as they are. -/
theorem loaded_fresh (ops : List (Op F K)) (d family : Nat) (f : FontObj F K) (h : loadFont (run World.empty ops).container family = some f) :
    view (run World.empty (ops ++ [.load d family])) d =
      { (view (run World.empty ops) d) with
        fonts := (view (run World.empty ops) d).fonts ++ [⟨f.file, f.src, f.family, none, some CharMap.empty, []⟩] } := by
  unfold run
  rw [List.foldl_append, List.foldl_cons, List.foldl_nil]
  have := (step_ok (run_wf wf_empty ops) (.load d family)).2 d
  rw [if_pos (show (Op.load d family : Op F K).doc = some d from rfl)] at this
  refine this.trans ?_
  simp only [docStep, h]
  rfl

/-- The steps of one call of `AddChars`. -/
def addCharsOps (d i : Nat) (text : List Nat) : List (Op F K) := .begin d i :: text.map (.char d i) ++ [.finish d i]

theorem chars_run {d i : Nat} (text : List Nat) : ∀ {w : World F K} {fv : FontView F K} {m m' : CharMap} {out : List Nat}, WF w →
    (view w d).fonts[i]? = some fv → fv.used = some m → addChars fv.src m text = (m', .ok out) →
    WF (run w (text.map (.char d i))) ∧ ∃ raw, raw.map goRune = out ∧ view (run w (text.map (.char d i))) d =
      { (view w d) with fonts := (view w d).fonts.set i { fv with used := some m', pending := fv.pending ++ raw } } := by
  induction text with
  | nil =>
    intro w fv m m' out hw hf hu ha
    simp only [addChars, Prod.mk.injEq, Except.ok.injEq] at ha
    refine ⟨hw, [], ha.2 ▸ rfl, ?_⟩
    have : (view w d).fonts.set i { fv with used := some m', pending := fv.pending ++ [] } = (view w d).fonts := by
      obtain ⟨hlt, he⟩ := List.getElem?_eq_some_iff.1 hf
      have : ({ fv with used := some m', pending := fv.pending ++ [] } : FontView F K) = fv := by
        rw [List.append_nil, ← ha.1, ← hu]
      rw [this, ← he, List.set_getElem_self]
    rw [this]; rfl
  | cons r text ih =>
    intro w fv m m' out hw hf hu ha
    unfold addChars at ha
    cases hr : addChar fv.src m r with
    | error e => rw [hr] at ha; simp at ha
    | ok p =>
      obtain ⟨m1, r'⟩ := p
      simp only [hr] at ha
      cases hrest : addChars fv.src m1 text with
      | mk m2 res =>
        rw [hrest] at ha
        cases res with
        | error e => simp at ha
        | ok out' =>
          simp only [Prod.mk.injEq, Except.ok.injEq] at ha
          obtain ⟨rfl, rfl⟩ := ha
          rw [List.map_cons, run_cons]
          have s := step_ok hw (.char d i r)
          have hv := s.2 d
          rw [if_pos (show (Op.char d i r : Op F K).doc = some d from rfl)] at hv
          have hd : docStep w.container (view w d) (.char d i r) =
              { (view w d) with fonts := (view w d).fonts.set i { fv with used := some m1, pending := fv.pending ++ [r'] } } := by
            simp [docStep, hf, charView, hu, hr]
          rw [hd] at hv
          obtain ⟨hlt, he⟩ := List.getElem?_eq_some_iff.1 hf
          have hf' : (view (step w (.char d i r)) d).fonts[i]? = some { fv with used := some m1, pending := fv.pending ++ [r'] } := by
            rw [hv]
            simp [hlt]
          obtain ⟨h1, raw, h2, h3⟩ := ih s.1 hf' rfl hrest
          refine ⟨h1, r' :: raw, by simp [h2], ?_⟩
          rw [h3, hv]
          simp

/-- **C44** A call of `AddChars` (through any text function) on a font of a document gives back what it gives on that font's own
set of used characters, and updates that set and no other. -/
theorem addChars_own (ops : List (Op F K)) (d i : Nat) (text : List Nat) (fv : FontView F K) (m m' : CharMap) (out : List Nat)
    (hf : (view (run World.empty ops) d).fonts[i]? = some fv) (hu : fv.used = some m) (ha : addChars fv.src m text = (m', .ok out)) :
    ∃ raw, raw.map goRune = out ∧ view (run World.empty (ops ++ addCharsOps d i text)) d =
      ⟨(view (run World.empty ops) d).fonts.set i { fv with used := some m', pending := raw }, .ok out :: (view (run World.empty ops) d).log⟩ ∧
    ∀ x, x ≠ d → view (run World.empty (ops ++ addCharsOps d i text)) x = view (run World.empty ops) x := by
  have hw := run_wf wf_empty ops (F := F) (K := K)
  generalize hW : run World.empty ops = w at hw hf ⊢
  have hrun : ∀ l, run World.empty (ops ++ l) = run w l := by
    intro l; rw [← hW]; unfold run; rw [List.foldl_append]
  rw [hrun]
  have s := step_ok hw (.begin d i)
  have hv := s.2 d
  rw [if_pos (show (Op.begin d i : Op F K).doc = some d from rfl)] at hv
  have hd : docStep w.container (view w d) (.begin d i) =
      { (view w d) with fonts := (view w d).fonts.set i { fv with pending := [] } } := by
    simp [docStep, hf]
  rw [hd] at hv
  obtain ⟨hlt, he⟩ := List.getElem?_eq_some_iff.1 hf
  have hf1 : (view (step w (.begin d i)) d).fonts[i]? = some { fv with pending := [] } := by
    rw [hv]; simp [hlt]
  obtain ⟨h1, raw, h2, h3⟩ := chars_run text s.1 hf1 hu ha
  refine ⟨raw, h2, ?_, ?_⟩
  · have s' := (step_ok h1 (.finish d i)).2 d
    rw [if_pos (show (Op.finish d i : Op F K).doc = some d from rfl)] at s'
    have hall : run w (addCharsOps d i text) = step (run (step w (.begin d i)) (text.map (.char d i))) (.finish d i) := by
      unfold addCharsOps run
      simp [List.foldl_append]
    rw [hall, s', h3, hv]
    simp [docStep, hlt, h2]
  · intro x hx
    have other : ∀ (l : List (Op F K)) (w : World F K), WF w → (∀ op ∈ l, op.doc = some d) → view (run w l) x = view w x := by
      intro l
      induction l with
      | nil => intro w _ _; rfl
      | cons op l ih =>
        intro w hw h
        rw [run_cons, ih _ (step_ok hw op).1 (fun o ho => h o (by simp [ho])), (step_ok hw op).2, if_neg]
        rw [h op (by simp)]
        simpa using Ne.symm hx
    refine other _ w hw ?_
    intro op hop
    simp only [addCharsOps, List.cons_append, List.mem_cons, List.mem_append, List.mem_map, List.not_mem_nil, or_false] at hop
    rcases hop with rfl | ⟨r, -, rfl⟩ | rfl <;> rfl

/-! Two documents with the same font; their calls of `AddChars` interleaved rune by rune. -/
def sharedSource : CharSource := ⟨⟨⟨1, [70], [65], [0], [0], []⟩, [], []⟩, none⟩
def sharedOps : List (Op Unit Unit) :=
  [.store 1 () sharedSource, .load 0 1, .load 1 1, .begin 0 0, .begin 1 0, .char 0 0 65, .char 1 0 66, .char 0 0 67, .finish 0 0, .finish 1 0]

example : (view (run World.empty sharedOps) 0).log = [.ok [65, 67]] ∧ (view (run World.empty sharedOps) 1).log = [.ok [66]] ∧
    (view (run World.empty sharedOps) 0).fonts.map (fun f => f.used.map CharMap.keys) = [some [65, 67]] ∧
    (view (run World.empty sharedOps) 1).fonts.map (fun f => f.used.map CharMap.keys) = [some [66]] ∧
    (sharedOps.filter (concerns 0)).length = 6 := by
  decide +kernel

example : ∃ f, loadFont (run World.empty (sharedOps.take 1)).container 1 = some f := ⟨_, rfl⟩
example : ∃ fv m m', (view (run World.empty (sharedOps.take 2)) 0).fonts[0]? = some fv ∧ fv.used = some m ∧
    addChars fv.src m [65, 67] = (m', .ok [65, 67]) ∧ m'.keys = [65, 67] :=
  ⟨_, _, _, rfl, rfl, rfl, rfl⟩

end Verif.Props
