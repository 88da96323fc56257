import Verif.Lemmas.Doc.Panic
import Verif.Lemmas.Layout.Ruler
import Verif.Props.TypesetContains
import Verif.Spec.Panics
/- Which calls panic. -/
set_option maxRecDepth 10000
namespace Verif.Content

theorem step_some {e : Env} {s : St} {c : Call} (h : isText c = false) : (step e s c).isSome := by
  cases c <;> first | rfl | (simp [isText] at h)

theorem addText_some {e : Env} {s : St} {cell : Bool} {rect : Option Units.Rect} {opt : CellOption} {text : List Nat}
    (hk : ∀ i ∈ s.pages.getD s.page [], Known e i)
    (ht : ∀ r ∈ text, ((e.fonts (s.cur.font + 1)).run.map.val r).isSome)
    (hc : ∀ (t : List Nat), (∀ r ∈ t, ((e.fonts (s.cur.font + 1)).run.map.val r).isSome) → ∀ size cs r,
      (createContent (e.fonts (s.cur.font + 1)) t size cs r).isSome) :
    (s.addText e (newText s.cur cell rect opt) text).isSome := by
  have hx : (extend e ((joinTarget (s.pages.getD s.page []) (newText s.cur cell rect opt)).getD (newText s.cur cell rect opt)) text).isSome := by
    have one : ∀ c : TextItem, c.font = s.cur.font + 1 → (∀ r ∈ c.text, ((e.fonts c.font).run.map.val r).isSome) → (extend e c text).isSome := by
      intro c h1 h2
      unfold extend
      rw [h1] at h2 ⊢
      rw [Option.isSome_map]
      refine hc _ (fun r hr => ?_) _ _ _
      rcases List.mem_append.1 hr with hr | hr
      · exact h2 r hr
      · exact ht r hr
    cases hj : joinTarget (s.pages.getD s.page []) (newText s.cur cell rect opt) with
    | none => exact one _ rfl (by simp [newText])
    | some c =>
      unfold joinTarget at hj
      split at hj
      · next c' hl =>
        split at hj
        · next hs =>
          obtain rfl := Option.some.inj hj
          have hm := List.mem_of_getLast? hl
          have hfont : c'.font = s.cur.font + 1 := by
            simp only [isSame, Bool.and_eq_true, beq_iff_eq] at hs
            exact hs.1.1.1.1.1.1.2
          exact one c' hfont (hk _ hm c' rfl)
        · exact absurd hj (by simp)
      · exact absurd hj (by simp)
  obtain ⟨x, hx⟩ := Option.isSome_iff_exists.1 hx
  simp only [St.addText, appendContentText, hx, Option.map_some]
  rfl

theorem step_text_some {e : Env} {s : St} {c : Call} (h : isText c = true) (hk : ∀ i ∈ s.pages.getD s.page [], Known e i)
    (ht : ∀ r ∈ Drawing.written c, ((e.fonts (s.cur.font + 1)).run.map.val r).isSome)
    (hc : ∀ (t : List Nat), (∀ r ∈ t, ((e.fonts (s.cur.font + 1)).run.map.val r).isSome) → ∀ size cs r,
      (createContent (e.fonts (s.cur.font + 1)) t size cs r).isSome) : (step e s c).isSome := by
  cases c <;> first | (simp [isText] at h; done) | exact addText_some hk ht hc

end Verif.Content

namespace Verif.Program

theorem step_panics {e : Content.Env} {s : St} {c : Call} {o : Option Doc.Op} (hd : docOp s.next c = some o)
    (hpen : ∀ d en k, contentCall d en c = some k → (Content.step e s.content k).isSome) :
    step e s c = none ↔ ∃ op, o = some op ∧ (Doc.step s.doc op).2 = .panic := by
  unfold step
  rw [hd]
  cases o with
  | none =>
    have hk : ∃ k, contentCall s.doc { tag := 0 } c = some k := by
      cases c <;> first | exact ⟨_, rfl⟩ | skip
      · next op => simp only [docOp] at hd; split at hd <;> simp at hd
      all_goals simp [docOp] at hd
    obtain ⟨k, hk⟩ := hk
    obtain ⟨x, hx⟩ := Option.isSome_iff_exists.1 (hpen _ _ k hk)
    simp [hk, hx]
  | some op =>
    simp only [Option.some.injEq, exists_eq_left']
    generalize Doc.step s.doc op = r
    obtain ⟨d, o⟩ := r
    cases o with
    | panic => simp
    | err => simp
    | ok =>
      simp only [reduceCtorEq, iff_false]
      cases hk : contentCall d (d.lastEntry.getD { tag := 0 }) c with
      | none => simp
      | some k =>
        obtain ⟨x, hx⟩ := Option.isSome_iff_exists.1 (hpen _ _ k hk)
        simp [hx]

end Verif.Program

namespace Verif.Typeset
open Props (IsScalar)
open FontFile

theorem addChars_total {l : Loaded} (hf : GoodFace l.face) (hg : Good l) : ∀ (t : List Nat) (m : TTF.CharMap),
    ∃ out, (TTF.addChars (l.face.source l.info) m t).2 = .ok out
  | [], m => ⟨[], rfl⟩
  | r :: t, m => by
    have hone : ∃ p, TTF.addChar (l.face.source l.info) m r = .ok p := by
      unfold TTF.addChar
      split
      · exact ⟨_, rfl⟩
      · rw [show (l.face.source l.info).cmap = l.info.font.cmap from rfl]
        rcases gives_cases hf.file.tags hf.cmap (load_font hg.load) r with ⟨g, g1, -⟩ | ⟨g1, -⟩
        · rw [g1]; exact ⟨_, rfl⟩
        · rw [g1]
          simp only [TTF.replaceMissing, Face.source]
          split
          · next h =>
            split at h
            · exact ⟨_, rfl⟩
            · exact ⟨_, rfl⟩
          · exact ⟨_, rfl⟩
          · next h =>
            exfalso
            split at h
            · cases h
            · rcases gives_cases hf.file.tags hf.cmap (load_font hg.load) (l.face.subst r) with ⟨g, g2, -⟩ | ⟨g2, -⟩ <;> rw [g2] at h <;> cases h
    obtain ⟨⟨m', r'⟩, hp⟩ := hone
    obtain ⟨out, ho⟩ := addChars_total hf hg t m'
    refine ⟨TTF.goRune r' :: out, ?_⟩
    · unfold TTF.addChars
      rw [hp]
      simp only []
      revert ho
      generalize TTF.addChars (l.face.source l.info) m' t = q
      obtain ⟨m'', o⟩ := q
      intro ho
      dsimp only at ho
      subst ho
      rfl

/-! ### Pages -/

theorem docOp_page {n : Nat} {c : Program.Call} {o : Option Doc.Op} (h : Program.docOp n c = some o) :
    o = some .addPage ↔ Program.isPage c = true := by
  cases c with
  | object op =>
    simp only [Program.docOp] at h
    split at h
    · obtain rfl := Option.some.inj h
      cases op <;> simp_all [Program.isPage, Program.objectOp]
    · cases h
  | plain c =>
    simp only [Program.docOp, Option.map_eq_some_iff] at h
    obtain ⟨b, -, rfl⟩ := h
    cases b <;> simp [Program.isPage]
  | _ => simp only [Program.docOp, Option.some.injEq] at h; subst h; simp [Program.isPage]

/-- `n` pages were added. -/
structure PageOK (s : St) (n : Nat) : Prop where
  bare : Doc.Bare s.prog.doc
  page : s.prog.doc.curPage = none ↔ n = 0

theorem prog_page {e : Content.Env} {s s' : Program.St} {c : Program.Call} (h : Program.step e s c = some s') (hb : Doc.Bare s.doc) :
    Doc.Bare s'.doc ∧ (s'.doc.curPage = none ↔ s.doc.curPage = none ∧ Program.isPage c = false) := by
  have key : ∀ op o, Program.docOp s.next c = some (some op) → Doc.step s.doc op = (s'.doc, o) → o ≠ .panic →
      Doc.Bare s'.doc ∧ (s'.doc.curPage = none ↔ s.doc.curPage = none ∧ Program.isPage c = false) := by
    intro op o h1 h2 h3
    have e1 : s'.doc = (Doc.step s.doc op).1 := by rw [h2]
    rw [e1]
    refine ⟨Doc.bare_step hb op (by rw [h2]; exact h3), ?_⟩
    rw [Doc.step_curPage]
    have := docOp_page h1
    simp only [Option.some.injEq] at this
    rw [← Bool.not_eq_true, ← this]
  cases Program.step_made h with
  | pen a1 x a2 a3 a4 a5 =>
    have hp : Program.isPage c = false := by
      have := docOp_page a1
      simpa using this
    rw [a3]
    exact ⟨hb, by simp [hp]⟩
  | err op a1 a2 a3 a5 => exact key op _ a1 a2 (by simp)
  | quiet op a1 a2 a3 a4 a5 => exact key op _ a1 a2 (by simp)
  | both op a1 a2 x a3 a4 a5 => exact key op _ a1 a2 (by simp)

theorem step_pageOK {base : Content.Env} {s s' : St} {c : Call} {k : Option Program.Call} {n : Nat} (h : step base s c = some (s', k))
    (hp : PageOK s n) : PageOK s' (n + [c].countP startsPage) := by
  rcases step_inv h with ⟨h0, h1, t, rfl⟩ | ⟨pc, h0, h1, h2⟩
  · exact ⟨by rw [h1]; exact hp.bare, by rw [h1, hp.page]; simp [startsPage]⟩
  · obtain ⟨b1, b2⟩ := prog_page h1 hp.bare
    refine ⟨b1, ?_⟩
    rw [b2, hp.page]
    have : Program.isPage pc = startsPage c := by
      cases c with
      | other x =>
        simp only [St.prepare] at h2
        split at h2 <;> simp at h2
        rw [h2.2]; rfl
      | addFont f st face =>
        simp only [St.prepare] at h2
        split at h2 <;> simp at h2 <;> rw [← h2.2] <;> rfl
      | measure t => simp [St.prepare] at h2
      | text t =>
        simp only [St.prepare, Option.map_eq_some_iff, Prod.mk.injEq, Option.some.injEq] at h2
        obtain ⟨_, _, _, rfl⟩ := h2; rfl
      | cell r t =>
        simp only [St.prepare, Option.map_eq_some_iff, Prod.mk.injEq, Option.some.injEq] at h2
        obtain ⟨_, _, _, rfl⟩ := h2; rfl
      | cellWithOption r t opt tr =>
        simp only [St.prepare, Option.map_eq_some_iff, Prod.mk.injEq, Option.some.injEq] at h2
        obtain ⟨_, _, _, rfl⟩ := h2; rfl
    rw [this, List.countP_singleton]
    cases hs : startsPage c <;> simp

theorem steps_pageOK {base : Content.Env} : ∀ (prog : List Call) (n : Nat) (s s' : St) (calls : List Program.Call), PageOK s n →
    steps base s prog = some (s', calls) → PageOK s' (n + prog.countP startsPage)
  | [], n, s, s', calls, hp, h => by
    simp only [steps, Option.some.injEq, Prod.mk.injEq] at h
    obtain ⟨rfl, rfl⟩ := h
    exact hp
  | c :: prog, n, s, s', calls, hp, h => by
    obtain ⟨s1, pk, calls', h1, h2, rfl⟩ := steps_cons h
    have := steps_pageOK prog _ s1 s' calls' (step_pageOK h1 hp) h2
    rw [Nat.add_assoc, ← List.countP_append] at this
    exact this

theorem pageOK_start (prot : Bool) (ml mt : ℚ) : PageOK (start prot ml mt) 0 :=
  ⟨fun _ => by cases prot <;> rfl, by simp [start, Program.start, Doc.start]⟩

end Verif.Typeset
