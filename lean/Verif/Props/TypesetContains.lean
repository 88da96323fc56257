import Verif.Props.TypesetMeasure
/- C75: which characters the current font has. -/
set_option maxRecDepth 10000
namespace Verif.Typeset
open TTF (glyphOf)

/-- If the library has no current font then the caller has chosen none. -/
def CurNone (s : St) (cur : Option Face) : Prop := s.prog.doc.curFont = none → cur = none

theorem step_none {base : Content.Env} {s s' : St} {c : Call} {k : Option Program.Call} {reg : Registered} {cur : Option Face}
    (h : step base s c = some (s', k)) (hr : RegOK s reg) (hn : CurNone s cur) : CurNone s' (selectFont reg cur c) := by
  intro hc
  rcases step_inv h with ⟨-, h1, t, rfl⟩ | ⟨pc, -, h1, h2⟩
  · rw [h1] at hc; exact hn hc
  · by_cases hp : ∃ f st size, pc = .setFont f st size
    · obtain ⟨f, st, size, rfl⟩ := hp
      obtain ⟨rfl, -⟩ := prepare_setFont h2
      rcases step_setFont h1 with ⟨i, a, b, ct, d, g, -, hd⟩ | ⟨hf, hd⟩
      · rw [hd] at hc; cases hc
      · rw [hd] at hc
        rcases pick_find hr f st with ⟨j, a, b, c, d, e, y, p1, -⟩ | ⟨-, p2⟩
        · rw [hf] at p1; cases p1
        · simp only [selectFont, p2]; exact hn hc
    · rw [step_cur h1 (fun f st size e => hp ⟨f, st, size, e⟩)] at hc
      rw [show selectFont reg cur c = cur from ?_]
      · exact hn hc
      · cases c with
        | other k =>
          cases k with
          | setFont f st size =>
            simp only [St.prepare, isOther, if_true, Option.some.injEq, Prod.mk.injEq] at h2
            exact absurd ⟨_, _, _, h2.2.symm⟩ hp
          | _ => rfl
        | _ => rfl

theorem none_final {base : Content.Env} : ∀ (prog : List Call) (x : Setting) (s s' : St) (calls : List Program.Call),
    Inv base s → (∀ c ∈ prog, c.Ok) → RegOK s x.reg → CurNone s x.face → steps base s prog = some (s', calls) →
    CurNone s' (prog.foldl Setting.after x).face
  | [], x, s, s', calls, hi, _, hr, hn, h => by
    simp only [steps, Option.some.injEq, Prod.mk.injEq] at h
    obtain ⟨rfl, rfl⟩ := h
    exact hn
  | c :: prog, x, s, s', calls, hi, hok, hr, hn, h => by
    obtain ⟨s1, pk, calls', h1, h2, rfl⟩ := steps_cons h
    have hok1 := hok c (by simp)
    exact none_final prog _ s1 s' calls' (step_sim hi hok1 h1).1 (fun x hx => hok x (by simp [hx])) (step_reg hi hok1 h1 hr)
      (step_none h1 hr hn) h2

end Verif.Typeset

namespace Verif.Props
open Typeset

/-- **C75** IsCurrFontContainGlyph always answers.  Without a current font it says no; else it says yes exactly if the `cmap` table
of the caller's file gives the character a glyph other than glyph 0. -/
theorem contains_glyph {base : Content.Env} {prot : Bool} {ml mt : ℚ} {prog : List Typeset.Call} {s : Typeset.St} {calls : List Program.Call}
    (hrun : Typeset.steps base (Typeset.start prot ml mt) prog = some (s, calls)) (hok : ∀ c ∈ prog, c.Ok)
    (hfaces : ∀ f st face, Typeset.Call.addFont f st face ∈ prog → accepted face = true → GoodFace face) (r : Nat) :
    ∃ b, s.containsGlyph r = some b ∧
      match (setting prog).face with
      | none => b = false
      | some face => (∃ g, Gives face.file r g ∧ b = decide (g ≠ 0)) ∨ ((∀ g, ¬ Gives face.file r g) ∧ b = false) := by
  have hi0 := inv_start base prot ml mt
  obtain ⟨-, hcur, -⟩ := setting_final prog {} _ s calls hi0 hok (reg_start prot ml mt) (cur_start prot ml mt) (size_start base.cfg prot ml mt) hrun
  have hn := none_final prog {} _ s calls hi0 hok (reg_start prot ml mt) (fun _ => rfl) hrun
  have hi := (steps_sim prog _ s calls hi0 hok hrun).1
  unfold St.containsGlyph
  rcases hc : s.prog.doc.curFont with _ | ⟨i, c⟩
  · have h0 : (setting prog).face = none := hn hc
    rw [h0]; exact ⟨false, rfl, rfl⟩
  · obtain ⟨l, hl, hf⟩ := hcur i c hc
    have hface : GoodFace l.face := by
      rcases setting_face prog {} _ hf with h | ⟨a, b, h⟩ | ⟨a, b, h, h'⟩
      · cases h
      · simp at h
      · exact hfaces a b _ h h'
    have hset : (setting prog).face = some l.face := hf
    have hg := hi.good i l hl
    simp only [hl, hset]
    rcases gives_cases hface.file.tags hface.cmap (load_font hg.load) r with ⟨g, g1, g2⟩ | ⟨g1, g2⟩
    · rw [g1]
      by_cases h0 : g = 0
      · exact ⟨false, by simp [h0], .inl ⟨g, g2, by simp [h0]⟩⟩
      · exact ⟨true, by simp [h0], .inl ⟨g, g2, by simp [h0]⟩⟩
    · rw [g1]; exact ⟨false, rfl, .inr ⟨g2, rfl⟩⟩

/-- **C75** If the answer is yes, text with the character that is drawn in the current font shows it with a glyph that the file gives
to it, never with a substitute: whatever glyph stands for it (`Stands`, C64) is its own. -/
theorem contains_drawn {base : Content.Env} {prot : Bool} {ml mt : ℚ} {prog : List Typeset.Call} {s : Typeset.St} {calls : List Program.Call}
    (hrun : Typeset.steps base (Typeset.start prot ml mt) prog = some (s, calls)) (hok : ∀ c ∈ prog, c.Ok)
    (hfaces : ∀ f st face, Typeset.Call.addFont f st face ∈ prog → accepted face = true → GoodFace face) {r : Nat}
    (hyes : s.containsGlyph r = some true) :
    ∃ face, (setting prog).face = some face ∧ (∃ g, g ≠ 0 ∧ Gives face.file r g) ∧ ∀ g, Stands face r g → Gives face.file r g := by
  obtain ⟨b, h1, h2⟩ := contains_glyph hrun hok hfaces r
  rw [hyes, Option.some.injEq] at h1
  subst h1
  cases hf : (setting prog).face with
  | none => rw [hf] at h2; cases h2
  | some face =>
    rw [hf] at h2
    simp only at h2
    rcases h2 with ⟨g, h3, h4⟩ | ⟨-, h4⟩
    · refine ⟨face, rfl, ⟨g, by simpa using h4, h3⟩, fun g' hs => ?_⟩
      cases hs with
      | own h => exact h
      | substitute h _ => exact absurd h3 (h g)
      | missing h _ => exact absurd h3 (h g)
    · cases h4

/-- **C75** If the answer is no although a font is chosen, the character is drawn as glyph 0 (the file's sign for "missing"), or not
drawn as itself: its substitute is drawn. -/
theorem contains_not {base : Content.Env} {prot : Bool} {ml mt : ℚ} {prog : List Typeset.Call} {s : Typeset.St} {calls : List Program.Call}
    (hrun : Typeset.steps base (Typeset.start prot ml mt) prog = some (s, calls)) (hok : ∀ c ∈ prog, c.Ok)
    (hfaces : ∀ f st face, Typeset.Call.addFont f st face ∈ prog → accepted face = true → GoodFace face) {r : Nat}
    (hno : s.containsGlyph r = some false) {face : Face} (hf : (setting prog).face = some face) :
    Gives face.file r 0 ∨ ∀ g, ¬ Gives face.file r g := by
  obtain ⟨b, h1, h2⟩ := contains_glyph hrun hok hfaces r
  rw [hno, Option.some.injEq] at h1
  subst h1
  rw [hf] at h2
  simp only at h2
  rcases h2 with ⟨g, h3, h4⟩ | ⟨h3, -⟩
  · have : g = 0 := by simpa using h4
    exact .inl (this ▸ h3)
  · exact .inr h3

end Verif.Props
