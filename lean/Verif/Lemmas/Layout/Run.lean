import Verif.Lemmas.Layout.Rel
import Verif.Props.Typeset
/- Whole programs with wrapped text, tables, headers and footers. -/
set_option maxRecDepth 10000
namespace Verif.Layout
open Typeset (wishes Wish Face Registered registerFont selectFont startsPage texts GoodFace accepted)
open Props (IsScalar)

/-- What is assumed of a block. -/
structure Fine (b : Block) : Prop where
  texts : ∀ t ∈ b.texts, ∀ r ∈ t, IsScalar r
  subst : ∀ f st face, b = .basic (.addFont f st face) → ∀ r, IsScalar (face.subst r)
  faces : ∀ f st face, b = .basic (.addFont f st face) → accepted face = true → GoodFace face ∧ Doc.noUnderline st = st

/-- The calls of a program. -/
def Calls (P : Block → Prop) (c : Typeset.Call) : Prop := (∃ b, P b ∧ Made b c) ∨ ∃ h, c = .other (.addPage h)

theorem Made.ok {b : Block} {c : Typeset.Call} (hb : Fine b) (h : Made b c) : c.Ok := by
  rcases h with h | ⟨_, _, _, rfl⟩ | ⟨rfl, -⟩
  · exact h.ok
  · trivial
  · cases c with
    | addFont f st face => exact hb.subst f st face rfl
    | other => trivial
    | _ => exact hb.texts _ (by simp [Block.texts])

theorem Made.page {b : Block} {c : Typeset.Call} (h : Made b c) : startsPage c = false := by
  rcases h with h | ⟨_, _, _, rfl⟩ | ⟨-, h⟩
  · exact h.1.page
  · rfl
  · exact h

section
variable {base : Content.Env} {prot : Bool} {ml mt : ℚ} {n : Nat} {P : Block → Prop}

theorem Reached.made {l l' : Log} {cs : List Typeset.Call} (hP : ∀ b, P b → Fine b) (h : Reached base prot ml mt l) (hf : From base l l' cs)
    (ho : ∀ c ∈ cs, Calls P c) : Reached base prot ml mt l' := by
  refine h.go hf (fun c hc => ?_) (fun f st face hc => ?_)
  · rcases ho c hc with ⟨b, hb, hm⟩ | ⟨_, rfl⟩
    · exact hm.ok (hP b hb)
    · trivial
  · rcases ho _ hc with ⟨b, hb, hm⟩ | ⟨_, hm⟩
    · rcases hm with hm | ⟨_, _, _, hm⟩ | ⟨rfl, -⟩
      · exact hm.1.elim
      · cases hm
      · exact (hP _ hb).faces f st face rfl
    · cases hm

theorem blocks_made (hP : ∀ b, P b → Fine b) : ∀ (bs : List Block) {l l' : Log}, Reached base prot ml mt l → (∀ b ∈ bs, P b) → blocks base n l bs = some l' →
    ∃ cs ps, From base l l' cs ∧ (∀ c ∈ cs, ∃ b, P b ∧ Made b c) ∧ WritesAll bs ps ∧ Rel (ctx ([], none) l.calls) cs ps
  | [], l, l', _, _, h => by
    simp only [blocks, Option.some.injEq] at h
    subst h
    exact ⟨[], [], From.refl base l, by simp, ⟨[], .nil, rfl⟩, Rel.refl _ _⟩
  | b :: bs, l, l', hl, hb, h => by
    obtain ⟨l1, h1, h2⟩ := Option.bind_eq_some_iff.1 h
    obtain ⟨cs, ps, a1, a2, a3, a4⟩ := block_made hl (hP b (hb b (by simp))).texts h1
    have hl1 := hl.made hP a1 (fun c hc => .inl ⟨b, hb b (by simp), a2 c hc⟩)
    obtain ⟨ds, qs, b1, b2, ⟨pss, b3, b4⟩, b5⟩ := blocks_made hP bs hl1 (fun c hc => hb c (by simp [hc])) h2
    refine ⟨_, ps ++ qs, a1.trans b1, ?_, ⟨ps :: pss, .cons a3 b3, by rw [b4]; rfl⟩, ?_⟩
    · intro k hk
      rcases List.mem_append.1 hk with hk | hk
      · exact ⟨b, hb b (by simp), a2 k hk⟩
      · exact b2 k hk
    · rw [a1.ctx] at b5
      exact a4.append b5

theorem reset_made {l l' : Log} (h : reset base l = some l') : ∃ cs, From base l l' cs ∧ (∀ c ∈ cs, Makes IsScalar c) ∧ cs.flatMap texts = [] := by
  refine ⟨_, acts_from _ h, ?_, by simp [texts]⟩
  intro c hc
  simp only [List.mem_cons, List.not_mem_nil, or_false] at hc
  rcases hc with rfl | rfl <;> exact ⟨trivial, trivial⟩

theorem count_made {cs : List Typeset.Call} (h : ∀ c ∈ cs, ∃ b, P b ∧ Made b c) : cs.countP startsPage = 0 := by
  rw [List.countP_eq_zero]
  intro c hc
  obtain ⟨b, -, hm⟩ := h c hc
  simp [hm.page]

/-- A page: the header, the footer. -/
theorem page_made (hP : ∀ b, P b → Fine b) (hne : ∃ b, P b) {s : St} {l' : Log} {h : ℚ} {s' : St} (hl : Reached base prot ml mt s.log)
    (hh : ∀ k, ∀ b ∈ s.header k, P b) (hf : ∀ k, ∀ b ∈ s.footer k, P b) (hs : step base n s (.addPage h) = some s') (hl' : s'.log = l') :
    ∃ cs a b, From base s.log l' cs ∧ (∀ c ∈ cs, Calls P c) ∧ WritesAll (s.header (s.pages + 1)) a ∧ WritesAll (s.footer (s.pages + 1)) b ∧
      Rel (ctx ([], none) s.log.calls) cs (.other (.addPage h) :: (a ++ b)) ∧ s' = { s with log := l', pages := s.pages + 1 } ∧ cs.countP startsPage = 1 := by
  subst hl'
  simp only [step] at hs
  obtain ⟨l1, h1, hs⟩ := Option.bind_eq_some_iff.1 hs
  obtain ⟨l2, h2, hs⟩ := Option.bind_eq_some_iff.1 hs
  obtain ⟨l3, h3, hs⟩ := Option.bind_eq_some_iff.1 hs
  obtain ⟨l4, h4, hs⟩ := Option.bind_eq_some_iff.1 hs
  obtain ⟨l5, h5, rfl⟩ := Option.map_eq_some_iff.1 hs
  obtain ⟨b0, hb0⟩ := hne
  have silent : ∀ {cs : List Typeset.Call}, (∀ c ∈ cs, Makes IsScalar c) → ∀ c ∈ cs, ∃ b, P b ∧ Made b c := fun h c hc => ⟨b0, hb0, .inl (h c hc)⟩
  have r1 := hl.made (P := P) hP (act_from h1) (fun c hc => .inr ⟨h, List.mem_singleton.1 hc⟩)
  obtain ⟨c2, p2, x1, x2, x3, x4⟩ := blocks_made hP _ r1 (hh _) h2
  have r2 := r1.made hP x1 (fun c hc => .inl (x2 c hc))
  obtain ⟨c3, y1, y2, y3⟩ := reset_made h3
  have r3 := r2.makes y1 y2
  obtain ⟨c4, p4, z1, z2, z3, z4⟩ := blocks_made hP _ r3 (hf _) h4
  obtain ⟨c5, w1, w2, w3⟩ := reset_made h5
  refine ⟨_, p2, p4, ((((act_from h1).trans x1).trans y1).trans z1).trans w1, ?_, x3, z3, ?_, rfl, ?_⟩
  · intro c hc
    simp only [List.cons_append, List.nil_append, List.mem_cons, List.mem_append] at hc
    rcases hc with rfl | ((hc | hc) | hc) | hc
    · exact .inr ⟨h, rfl⟩
    · exact .inl (x2 c hc)
    · exact .inl (silent y2 c hc)
    · exact .inl (z2 c hc)
    · exact .inl (silent w2 c hc)
  · have e1 := Rel.refl (ctx ([], none) s.log.calls) [Typeset.Call.other (.addPage h)]
    rw [(act_from h1).ctx] at x4
    have e2 := e1.append x4
    have e3 := e2.append (Rel.silent _ (fun c hc => (y2 c hc).1) y3)
    rw [y1.ctx, x1.ctx, (act_from h1).ctx, ← ctx_append, ← ctx_append, ← List.append_assoc] at z4
    have e4 := e3.append z4
    have e5 := e4.append (Rel.silent _ (fun c hc => (w2 c hc).1) w3)
    simpa using e5
  · simp only [List.countP_append, count_made x2, count_made (silent y2), count_made z2, count_made (silent w2)]
    rfl

/-- A program. -/
theorem steps_made (hP : ∀ b, P b → Fine b) (hne : ∃ b, P b) : ∀ (prog : List Call) {s s' : St}, Reached base prot ml mt s.log →
    (∀ k, ∀ b ∈ s.header k, P b) → (∀ k, ∀ b ∈ s.footer k, P b) → (∀ b, Has prog b → P b) → steps base n s prog = some s' →
    ∃ cs ps, From base s.log s'.log cs ∧ (∀ c ∈ cs, Calls P c) ∧ Written s.header s.footer s.pages prog ps ∧ Rel (ctx ([], none) s.log.calls) cs ps ∧
      cs.countP startsPage = prog.countP isPage
  | [], s, s', _, _, _, _, h => by
    simp only [steps, Option.some.injEq] at h
    subst h
    exact ⟨[], [], From.refl base _, by simp, .nil, Rel.refl _ _, rfl⟩
  | c :: prog, s, s', hl, hh, hf, hb, h => by
    obtain ⟨s1, h1, h2⟩ := Option.bind_eq_some_iff.1 h
    have hrest : ∀ b, Has prog b → P b := by
      rintro b (hb' | ⟨f, k, hf', hk⟩)
      · exact hb b (.inl (by simp [hb']))
      · exact hb b (.inr ⟨f, k, by rcases hf' with h | h <;> simp [h], hk⟩)
    cases c with
    | block b =>
      obtain ⟨l1, h3, rfl⟩ := Option.map_eq_some_iff.1 h1
      have hPb := hb b (.inl (by simp))
      obtain ⟨cs, ps, a1, a2, a3, a4⟩ := block_made hl (hP b hPb).texts h3
      have hc : ∀ c ∈ cs, ∃ b, P b ∧ Made b c := fun c hc => ⟨b, hPb, a2 c hc⟩
      obtain ⟨ds, qs, b1, b2, b3, b4, b5⟩ := steps_made hP hne prog (s := { s with log := l1 }) (hl.made hP a1 (fun c h => .inl (hc c h))) hh hf hrest h2
      refine ⟨_, _, a1.trans b1, ?_, .block a3 b3, ?_, ?_⟩
      · intro k hk
        rcases List.mem_append.1 hk with hk | hk
        · exact .inl (hc k hk)
        · exact b2 k hk
      · have e := a1.ctx ([], none)
        simp only [e] at b4
        exact a4.append b4
      · rw [List.countP_append, count_made hc, b5, List.countP_cons]
        simp [isPage]
    | addPage ht =>
      obtain ⟨cs, a, b, a1, a2, a3, a4, a5, a6, a7⟩ := page_made hP hne hl hh hf h1 rfl
      have hl1 := hl.made hP a1 a2
      have e6 : s1.header = s.header ∧ s1.footer = s.footer ∧ s1.pages = s.pages + 1 := by rw [a6]; exact ⟨rfl, rfl, rfl⟩
      obtain ⟨ds, qs, b1, b2, b3, b4, b5⟩ := steps_made hP hne prog hl1 (by rw [e6.1]; exact hh) (by rw [e6.2.1]; exact hf) hrest h2
      rw [e6.1, e6.2.1, e6.2.2] at b3
      refine ⟨_, _, a1.trans b1, ?_, .page a3 a4 b3, ?_, ?_⟩
      · intro k hk
        rcases List.mem_append.1 hk with hk | hk
        · exact a2 k hk
        · exact b2 k hk
      · rw [a1.ctx] at b4
        have := a5.append b4
        simpa using this
      · rw [List.countP_append, a7, b5, List.countP_cons]
        simp [isPage]; omega
    | addHeader f =>
      simp only [step, Option.some.injEq] at h1
      subst h1
      obtain ⟨ds, qs, b1, b2, b3, b4, b5⟩ := steps_made hP hne prog (s := { s with header := f }) hl (fun k b hk => hb b (.inr ⟨f, k, .inl (by simp), hk⟩)) hf hrest h2
      exact ⟨ds, qs, b1, b2, .header b3, b4, by rw [b5, List.countP_cons]; simp [isPage]⟩
    | addFooter f =>
      simp only [step, Option.some.injEq] at h1
      subst h1
      obtain ⟨ds, qs, b1, b2, b3, b4, b5⟩ := steps_made hP hne prog (s := { s with footer := f }) hl hh (fun k b hk => hb b (.inr ⟨f, k, .inr (by simp), hk⟩)) hrest h2
      exact ⟨ds, qs, b1, b2, .footer b3, b4, by rw [b5, List.countP_cons]; simp [isPage]⟩

theorem reached_start : Reached base prot ml mt (start prot ml mt).log := ⟨rfl, by simp [start], by simp [start]⟩

end

end Verif.Layout
