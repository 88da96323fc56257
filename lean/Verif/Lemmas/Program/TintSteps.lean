import Verif.Lemmas.Program.TintStep
/- The graphics states of the text of a program given with its font files. -/
set_option maxRecDepth 10000
namespace Verif.Typeset
open Doc (NoUL TrOK)
open Content (RunOK)
open Program (Applies exts)

theorem addChars_len (c : TTF.CharSource) : ∀ (t : List Nat) (m m' : TTF.CharMap) (out : List Nat), TTF.addChars c m t = (m', .ok out) → out.length = t.length
  | [], m, m', out, h => by
    simp only [TTF.addChars, Prod.mk.injEq, Except.ok.injEq] at h
    simp [← h.2]
  | r :: t, m, m', out, h => by
    simp only [TTF.addChars] at h
    split at h
    · simp at h
    · next m1 r1 h1 =>
      split at h
      · next m2 o2 h2 =>
        simp only [Prod.mk.injEq, Except.ok.injEq] at h
        rw [← h.2, List.length_cons, List.length_cons, addChars_len c t _ _ _ h2]
      · simp at h

theorem St.addChars_len {s : St} {t : List Nat} {p : (Nat → Option Loaded) × List Nat} (h : s.addChars t = some p) : p.2.length = t.length := by
  unfold St.addChars at h
  split at h
  · cases h
  · split at h
    · cases h
    · split at h
      · next h1 => simp only [Option.some.injEq] at h; subst h; exact Typeset.addChars_len _ _ _ _ _ h1
      · cases h

/-- A call and the call it makes. -/
theorem prepared {s : St} {c : Call} {f : Nat → Option Loaded} {pc : Program.Call} (h : s.prepare c = some (f, some pc)) :
    (∀ x, Program.tint x pc = tintOf x c) ∧ (∀ x, Program.trAfter x pc = blendAfter x c) ∧ Program.txt pc = isText c ∧ Program.box pc = boxed c ∧
    Program.part pc = parts c ∧ (∀ t ∈ Program.settingsOf pc, t ∈ settingsOf c) ∧ (Program.written pc).length = (texts c).length ∧
    Program.isPage pc = startsPage c := by
  cases c with
  | addFont fam st face =>
    simp only [St.prepare] at h
    split at h <;> simp only [Option.some.injEq, Prod.mk.injEq, reduceCtorEq] at h
    all_goals
      obtain ⟨-, rfl⟩ := h
      exact ⟨fun _ => rfl, fun _ => rfl, rfl, rfl, rfl, by simp [Program.settingsOf], rfl, rfl⟩
  | measure t =>
    simp only [St.prepare, Option.map_eq_some_iff] at h
    obtain ⟨_, _, he⟩ := h
    simp at he
  | other k =>
    simp only [St.prepare] at h
    split at h
    · next ho =>
      simp only [Option.some.injEq, Prod.mk.injEq] at h
      obtain ⟨-, rfl⟩ := h
      cases k with
      | plain x => cases x <;> exact ⟨fun _ => rfl, fun _ => rfl, rfl, rfl, rfl, fun _ h => h, rfl, rfl⟩
      | text t => simp [isOther] at ho
      | cell r t => simp [isOther] at ho
      | cellWithOption r t o tr => simp [isOther] at ho
      | _ => exact ⟨fun _ => rfl, fun _ => rfl, rfl, rfl, rfl, fun _ h => h, rfl, rfl⟩
    · cases h
  | text t =>
    simp only [St.prepare, Option.map_eq_some_iff] at h
    obtain ⟨p, hp, he⟩ := h
    simp only [Prod.mk.injEq, Option.some.injEq] at he
    obtain ⟨-, rfl⟩ := he
    exact ⟨fun _ => rfl, fun _ => rfl, rfl, rfl, rfl, fun _ h => h, St.addChars_len hp, rfl⟩
  | cell r t =>
    simp only [St.prepare, Option.map_eq_some_iff] at h
    obtain ⟨p, hp, he⟩ := h
    simp only [Prod.mk.injEq, Option.some.injEq] at he
    obtain ⟨-, rfl⟩ := he
    exact ⟨fun _ => rfl, fun _ => rfl, rfl, by cases r <;> rfl, rfl, fun _ h => h, St.addChars_len hp, rfl⟩
  | cellWithOption r t o tr =>
    simp only [St.prepare, Option.map_eq_some_iff] at h
    obtain ⟨p, hp, he⟩ := h
    simp only [Prod.mk.injEq, Option.some.injEq] at he
    obtain ⟨-, rfl⟩ := he
    exact ⟨fun _ => rfl, fun _ => rfl, rfl, by cases r <;> rfl, rfl, fun _ h => h, St.addChars_len hp, rfl⟩

theorem tinted_exts {base : Content.Env} (k : Nat) : ∀ (prog : List Call) (x : Option (Nat × Nat)) (run : Option (Option (Nat × Nat))) (s s' : St)
    (calls : List Program.Call), Inv base s → Program.Res s.prog → (∀ c ∈ prog, c.Ok) → TrOK s.prog.doc x →
    (RunOK s.prog.content fun l => ∃ r, run = some r ∧ Applies s.prog.doc l r) → (∀ c ∈ prog, ∀ t ∈ settingsOf c, t.sharp) → Parted run x prog →
    s.prog.content.page + 1 = s.prog.content.pages.length → steps base s prog = some (s', calls) →
    ∃ new, exts (s'.prog.content.pages.getD k []) = exts (s.prog.content.pages.getD k []) ++ new ∧
      List.Forall₂ (Applies s'.prog.doc) new (tinted k s.prog.content.page x prog)
  | [], x, run, s, s', calls, hi, _, _, _, _, _, _, _, h => by
    simp only [steps, Option.some.injEq, Prod.mk.injEq] at h
    obtain ⟨rfl, rfl⟩ := h
    exact ⟨[], by simp, .nil⟩
  | c :: prog, x, run, s, s', calls, hi, hres, hok, htr, hrun, hsharp, hpart, hp, h => by
    obtain ⟨s1, pk, calls', h1, h2, rfl⟩ := steps_cons h
    have hok1 := hok c (by simp)
    have hok2 : ∀ x ∈ prog, x.Ok := fun x hx => hok x (by simp [hx])
    obtain ⟨a1, -, -, -, -⟩ := step_sim hi hok1 h1
    obtain ⟨-, -, b3, -, -⟩ := steps_sim prog s1 s' calls' a1 hok2 h2
    have hs2 : ∀ c ∈ prog, ∀ t ∈ settingsOf c, t.sharp := fun c hc => hsharp c (by simp [hc])
    rcases step_inv h1 with ⟨-, e1, t, rfl⟩ | ⟨pc, rfl, hrun1, hprep⟩
    · have := tinted_exts k prog x run s1 s' calls' a1 (by rw [e1]; exact hres) hok2 (by rw [e1]; exact htr) (by rw [e1]; exact hrun) hs2 hpart.2
        (by rw [e1]; exact hp) h2
      rw [e1] at this
      simpa [tinted, texts, startsPage, blendAfter] using this
    · obtain ⟨p1, p2, p3, p4, p5, p6, p7, p8⟩ := prepared hprep
      obtain ⟨q1, ⟨new1, n1, n2, n3⟩, q3⟩ := Program.step_tint hres htr hrun hrun1 (fun t ht => hsharp c (by simp) t (p6 t ht))
        (by rw [p3, p1]; exact hpart.1) (by omega) k
      have hnext : Program.runNext run x pc = runAfter run x c := by simp only [Program.runNext, runAfter, p1, p3, p4, p5]
      obtain ⟨g1, g2⟩ := Program.step_page hrun1 hp
      obtain ⟨new2, m1, m2⟩ := tinted_exts k prog (blendAfter x c) (runAfter run x c) s1 s' calls' a1 (Program.Res.step hres hrun1) hok2 (by rw [← p2]; exact q1)
        (by rw [← hnext]; exact q3) hs2 hpart.2 g1 h2
      refine ⟨new1 ++ new2, by rw [m1, n1, List.append_assoc], ?_⟩
      rw [g2, p8] at m2
      simp only [tinted]
      refine List.rel_append ?_ m2
      rw [p7] at n2
      have hall : ∀ l ∈ new1, Applies s'.prog.doc l (tintOf x c) := fun l hl => by rw [← p1]; exact (n3 l hl).ext b3
      by_cases hk : s.prog.content.page = k
      · rw [if_pos hk] at n2 ⊢
        rw [List.forall₂_iff_get]
        refine ⟨by simpa using n2, fun j h1 h2 => ?_⟩
        simp only [List.get_eq_getElem, List.getElem_map]
        exact hall _ (List.getElem_mem _)
      · rw [if_neg hk] at n2 ⊢
        obtain rfl : new1 = [] := List.length_eq_zero_iff.1 n2
        exact .nil

end Verif.Typeset
