import Verif.Lemmas.Content.Nest
/- C33: the content stream of every page is well formed. -/
namespace Verif.Props
open Content Paint Drawing

private theorem depth_cons (d : Nat) (c : Call) (rest : List Call) :
    depth d (c :: rest) = (depth d [c]).bind fun d' => depth d' rest := by
  cases c <;> cases d <;> simp [depth]

private theorem callsOn_other {n cur count : Nat} {c : Call} (ha : ∀ h, c ≠ .addPage h) (hs : ∀ k, c ≠ .setPage k)
    (rest : List Call) : callsOn n cur count (c :: rest) =
      if cur = n then c :: callsOn n cur count rest else callsOn n cur count rest := by
  cases c <;> first | rfl | (exact absurd rfl (ha _)) | (exact absurd rfl (hs _))

private theorem history {e : Env} (n : Nat) : ∀ (calls : List Call) (s s' : St), steps e s calls = some s' →
    s.page < s.pages.length → (∀ c ∈ calls, HasPoints c) → (∀ p ∈ s.pages, ∀ i ∈ p, i.good) →
    (∀ p ∈ s'.pages, ∀ i ∈ p, i.good) ∧
    ∀ d, nest d (s'.pages.getD n []) =
      (nest d (s.pages.getD n [])).bind fun d' => depth d' (callsOn n s.page s.pages.length calls) := by
  intro calls
  induction calls with
  | nil =>
    intro s s' h _ _ hg
    obtain rfl : s = s' := by simpa [steps] using h
    refine ⟨hg, fun d => ?_⟩
    cases nest d (s.pages.getD n []) <;> simp [callsOn, depth]
  | cons c calls ih =>
    intro s s' h hp hpts hg
    simp only [steps] at h
    obtain ⟨s1, h1, h2⟩ := Option.bind_eq_some_iff.1 h
    have hpts' : ∀ c ∈ calls, HasPoints c := fun x hx => hpts x (by simp [hx])
    cases step_effect h1 with
    | addPage x hpg hc =>
      have hget : ∀ m, s1.pages.getD m [] = s.pages.getD m [] := by
        intro m
        rw [hpg]
        simp only [List.getD_eq_getElem?_getD]
        by_cases hm : m < s.pages.length
        · rw [List.getElem?_append_left hm]
        · rw [List.getElem?_append_right (by omega), List.getElem?_eq_none (l := s.pages) (i := m) (by omega)]
          cases hk : m - s.pages.length <;> simp
      obtain ⟨g, r⟩ := ih s1 s' h2 (by rw [hpg, hc]; simp) hpts' (by
        rw [hpg]; intro p hp' i hi
        rw [List.mem_append, List.mem_singleton] at hp'
        rcases hp' with hp' | rfl
        · exact hg p hp' i hi
        · simp at hi)
      refine ⟨g, fun d => ?_⟩
      rw [r, hget]
      simp only [callsOn, hc, hpg, List.length_append, List.length_singleton]
    | setPage k hpg hc =>
      obtain ⟨g, r⟩ := ih s1 s' h2 (by rw [hpg, hc]; split <;> assumption) hpts' (by rw [hpg]; exact hg)
      refine ⟨g, fun d => ?_⟩
      rw [r, hpg]
      simp only [callsOn, hc]
    | other _ ha hs hc items hpg hn hgood =>
      have hcur : s.pages.getD s.page [] ∈ s.pages := by
        rw [List.getD_eq_getElem?_getD, List.getElem?_eq_getElem hp]; exact List.getElem_mem hp
      have hitems := hgood (hpts c (by simp)) (hg _ hcur)
      obtain ⟨g, r⟩ := ih s1 s' h2 (by rw [hpg, hc]; simpa using hp) hpts' (by
        rw [hpg]; intro p hp' i hi
        rcases List.mem_or_eq_of_mem_set hp' with hp' | rfl
        · exact hg p hp' i hi
        · exact hitems i hi)
      refine ⟨g, fun d => ?_⟩
      rw [r, hc]
      have hlen : s1.pages.length = s.pages.length := by rw [hpg]; simp
      rw [hlen, callsOn_other ha hs]
      by_cases hnp : s.page = n
      · rw [if_pos hnp]
        have : s1.pages.getD n [] = items := by
          rw [hpg, List.getD_eq_getElem?_getD, ← hnp]; simp [hp]
        rw [this, hn, ← hnp]
        cases nest d (s.pages.getD s.page []) with
        | none => rfl
        | some d' => simp only [Option.bind_some]; rw [← depth_cons]
      · rw [if_neg hnp]
        have : s1.pages.getD n [] = s.pages.getD n [] := by
          rw [hpg, List.getD_eq_getElem?_getD, List.getElem?_set_ne hnp, ← List.getD_eq_getElem?_getD]
        rw [this]

/-- **C33** The content stream of every page is complete: a reader that allows every operator only where ISO 32000 does
(graphics state and shapes outside text objects and paths, text only inside text objects, …) accepts it, it closes every
text object and path, and every `q` is matched by a `Q`.  For every sequence of calls, fonts and settings, provided that
on this page what the user saves is restored and nothing else, and that polygons have points (needed, see
`empty_polygon_malformed_fails`). -/
theorem page_complete (e : Env) (wd : Widths) (height ml mt : ℚ) (calls : List Call) (s : St)
    (h : steps e (start height ml mt) calls = some s) (n : Nat)
    (hnest : Nested (callsOn n 0 1 calls)) (hpts : ∀ c ∈ calls, HasPoints c) :
    Complete wd (pageOps e (s.pages.getD n [])) := by
  obtain ⟨hg, hd⟩ := history n calls _ s h (by simp [start]) hpts (by simp [start])
  have hd0 : nest 0 (s.pages.getD n []) = some 0 := by
    rw [hd 0]
    have : (start height ml mt).pages.getD n [] = [] := by cases n <;> simp [start]
    rw [this]
    exact hnest
  have hgood : ∀ i ∈ s.pages.getD n [], i.good := by
    intro i hi
    rw [List.getD_eq_getElem?_getD] at hi
    cases hx : s.pages[n]? with
    | none => simp [hx] at hi
    | some p => rw [hx] at hi; exact hg p (List.mem_of_getElem? hx) i hi
  obtain ⟨r, h1, h2, h3⟩ := run_items wd e _ {} 0 rfl hgood hd0
  exact ⟨r, h1, h2, by simpa using h3⟩

/-- **C33** A page on which something is left saved, or restored without being saved, is not complete: the hypothesis of
`page_complete` is necessary. -/
theorem page_incomplete (e : Env) (wd : Widths) (height ml mt : ℚ) (calls : List Call) (s : St)
    (h : steps e (start height ml mt) calls = some s) (n : Nat)
    (hnest : ¬ Nested (callsOn n 0 1 calls)) (hpts : ∀ c ∈ calls, HasPoints c) :
    ¬ Complete wd (pageOps e (s.pages.getD n [])) := by
  obtain ⟨hg, hd⟩ := history n calls _ s h (by simp [start]) hpts (by simp [start])
  have hd0 : nest 0 (s.pages.getD n []) = depth 0 (callsOn n 0 1 calls) := by
    rw [hd 0]
    have : (start height ml mt).pages.getD n [] = [] := by cases n <;> simp [start]
    rw [this]
    rfl
  have hgood : ∀ i ∈ s.pages.getD n [], i.good := by
    intro i hi
    rw [List.getD_eq_getElem?_getD] at hi
    cases hx : s.pages[n]? with
    | none => simp [hx] at hi
    | some p => rw [hx] at hi; exact hg p (List.mem_of_getElem? hx) i hi
  rintro ⟨r, h1, h2, h3⟩
  apply hnest
  unfold Nested
  rw [← hd0]
  cases hx : nest 0 (s.pages.getD n []) with
  | some d =>
    obtain ⟨r', h1', -, h3'⟩ := run_items wd e _ {} d rfl hgood hx
    rw [h1] at h1'
    obtain rfl := Option.some.inj h1'
    rw [h3] at h3'
    exact congrArg some (by simpa using h3'.symm)
  | none => exact absurd h1 (by rw [run_items_none wd e _ {} rfl hgood hx]; simp)

/-- **C33** (counterexample)  Drawing a polygon without points writes a painting operator without a path, which no reader
need accept. -/
theorem empty_polygon_malformed_fails (e : Env) (wd : Widths) (height ml mt : ℚ) (st : PaintKind) :
    ∃ s, steps e (start height ml mt) [.polygon [] st] = some s ∧
      Nested (callsOn 0 0 1 [.polygon [] st]) ∧ ¬ Complete wd (pageOps e (s.pages.getD 0 [])) := by
  refine ⟨_, rfl, by simp [Nested, callsOn, depth], ?_⟩
  rintro ⟨r, h, -⟩
  simp [start, St.add, pageOps, ops, pathOps, run_cons, run, exec, exec.finish] at h

/-- **C33** Shapes, images, templates and transparent text do not disturb the graphics state: whatever was set before is
still set afterwards, so each call draws independently of the shapes drawn before it. -/
theorem shape_leaves_state (e : Env) (wd : Widths) (i : Item) (r : Reader) (hr : r.level = .page)
    (hi : match i with
      | .line .. | .rectangle .. | .oval .. | .curve .. | .image _ | .template .. => True
      | .polygon _ pts _ _ => pts ≠ []
      | .text t => t.opt.ext ≠ []
      | _ => False) :
    ∃ r', run wd r (ops e i) = some r' ∧ r'.g = r.g ∧ r'.stack = r.stack ∧ r'.level = .page := by
  cases i with
  | text t =>
    obtain ⟨k, h, -⟩ := runs_text wd e t
    exact ⟨_, h r hr, by simp [textAfter, show t.opt.ext ≠ [] from hi], rfl, hr⟩
  | image i => exact ⟨_, runs_image wd e i r hr, rfl, rfl, hr⟩
  | line h x1 y1 x2 y2 ext => exact ⟨_, runs_line wd e h x1 y1 x2 y2 ext r hr, rfl, rfl, hr⟩
  | rectangle h x y w ht st ext => exact ⟨_, runs_rectangle wd e h x y w ht st ext r hr, rfl, rfl, hr⟩
  | polygon h pts st ext => exact ⟨_, runs_polygon wd e h pts st ext hi r hr, rfl, rfl, hr⟩
  | oval h x1 y1 x2 y2 => exact ⟨_, Runs.curves wd _ _ _ _ _ _ _ _ _ _ _ _ _ r hr, rfl, rfl, hr⟩
  | curve h p0 p1 p2 p3 st => exact ⟨_, runs_curve wd e h p0 p1 p2 p3 st r hr, rfl, rfl, hr⟩
  | template h sx sy tx ty name => exact ⟨_, runs_template wd e h sx sy tx ty name r hr, rfl, rfl, hr⟩
  | _ => exact hi.elim

/-- A font with two letters for the examples. -/
def demoRunFont : Content.Font where
  run := { unitsPerEm := 1000, nHMetrics := 3, widths := [500, 600, 700], map := ⟨[(65, 0), (66, 1)], [65, 66], [1, 2]⟩,
           useKerning := false, kern := fun _ _ _ _ => 0 }

def demoEnv : Env := { cfg := ⟨1, 0⟩, fonts := fun _ => demoRunFont, cos := fun _ => 1, sin := fun _ => 0 }

/-- Text, a rotated line, a second page, and back to the first: the hypotheses hold for a non-trivial history. -/
def demoCalls : List Call :=
  [.setFont 0 4 10, .text [65], .rotate 30 5 5, .line 0 0 1 1, .addPage 800, .save, .clipPolygon [(0, 0), (1, 1)], .restore,
   .setPage 0, .rotateReset, .text [66]]

example : ∃ s, steps demoEnv (start 842 10 10) demoCalls = some s ∧ s.pages.length = 2 ∧
    Nested (callsOn 0 0 1 demoCalls) ∧ Nested (callsOn 1 0 1 demoCalls) ∧ ∀ c ∈ demoCalls, HasPoints c := by
  have h : (steps demoEnv (start 842 10 10) demoCalls).isSome = true := by decide +kernel
  obtain ⟨s, hs⟩ := Option.isSome_iff_exists.1 h
  refine ⟨s, hs, ?_, by simp [Nested, callsOn, demoCalls, depth], by simp [Nested, callsOn, demoCalls, depth],
    by simp [demoCalls, HasPoints]⟩
  have h2 : (steps demoEnv (start 842 10 10) demoCalls).map (·.pages.length) = some 2 := by decide +kernel
  rw [hs] at h2; simpa using h2

end Verif.Props
