import Verif.Lemmas.Panics
import Verif.Lemmas.Embed.Panic
/- C82: which calls panic. -/
set_option maxRecDepth 10000
namespace Verif.Typeset
open Props (IsScalar)
open FontFile CmapSpec

/-- The next call is one a caller can make: the kinds of calls are as in Verif/Model/Program.lean, text comes from a Go string, and a font
file has distinct tables and announces an advance width unless it has no glyphs (`incomplete_font_refused_fails`). -/
def Possible (c : Call) : Prop :=
  c.Ok ∧ match c with
  | .addFont _ _ face => DistinctTags face.file ∧
      ∀ p l g, HasTable face.file (lit "hhea") p l → U16 face.file (p + 34) 0 → NumGlyphs face.file g → g = 0
  | .other k => isOther k = true ∧ ∀ n, Program.docOp n k ≠ none
  | _ => True

section
variable {base : Content.Env} {prot : Bool} {ml mt : ℚ} {l : Layout.Log}

/-- With a current font AddChars answers; without one it panics. -/
theorem addChars_panic (h : Layout.Reached base prot ml mt l) (t : List Nat) : l.s.addChars t = none ↔ (setting l.calls).face = none := by
  have hi0 := inv_start base prot ml mt
  obtain ⟨-, hcur, -⟩ := setting_final l.calls {} _ l.s l.drawn hi0 h.ok (reg_start prot ml mt) (cur_start prot ml mt) (size_start base.cfg prot ml mt) h.run
  have hn := none_final l.calls {} _ l.s l.drawn hi0 h.ok (reg_start prot ml mt) (fun _ => rfl) h.run
  have hi := (steps_sim l.calls _ l.s l.drawn hi0 h.ok h.run).1
  unfold St.addChars
  cases hc : l.s.prog.doc.curFont with
  | none => simp only [true_iff]; exact hn hc
  | some p =>
    obtain ⟨i, c⟩ := p
    obtain ⟨x, hl, hf⟩ := hcur i c hc
    have hface : GoodFace x.face := h.good hf
    have hset : (setting l.calls).face = some x.face := hf
    obtain ⟨out, ho⟩ := addChars_total hface (hi.good i x hl) t x.map
    simp only [hl, hset, reduceCtorEq, iff_false]
    revert ho
    generalize TTF.addChars (x.face.source x.info) x.map t = q
    obtain ⟨m, o⟩ := q
    intro ho
    dsimp only at ho
    subst ho
    simp

/-- Drawing text, with a current font, does not panic for want of a glyph or a width. -/
theorem draws_text (h : Layout.Reached base prot ml mt l) {t out : List Nat} {fonts : Nat → Option Loaded} (ht : ∀ r ∈ t, IsScalar r)
    (ha : l.s.addChars t = some (fonts, out)) {k : Content.Call} (hk : Content.isText k = true) (hw : Drawing.written k = out) :
    (Content.step (St.env base { l.s with fonts := fonts }) l.s.prog.content k).isSome := by
  have hi0 := inv_start base prot ml mt
  have hi := (steps_sim l.calls _ l.s l.drawn hi0 h.ok h.run).1
  have hr := (setting_final l.calls {} _ l.s l.drawn hi0 h.ok (reg_start prot ml mt) (cur_start prot ml mt) (size_start base.cfg prot ml mt) h.run).1
  have hu : Doc.NoUL l.s.prog.doc := by
    intro i f st c cid u hf
    rw [setting_reg] at hr
    obtain ⟨face, f1, f2, -⟩ := font_given hr hf
    exact (h.faces _ _ _ f1 f2).2
  have add := addChars_added hi ha ht
  obtain ⟨x, x1, x2, x3, x4, x5, -⟩ := h.chars ht ha
  have hmid : Covers base l.s (St.env base { l.s with fonts := fonts }) :=
    (Covers.self base (s := { l.s with fonts := fonts }) hi.res.reach).back (Doc.Grow.refl _) add.grow
  refine Content.step_text_some hk ?_ ?_ ?_
  · intro i hii
    rw [List.getD_eq_getElem?_getD] at hii
    cases hxx : l.s.prog.content.pages[l.s.prog.content.page]? with
    | none => simp [hxx] at hii
    | some q =>
      rw [hxx] at hii
      have hq := List.mem_of_getElem? hxx
      exact Known.cover hi hmid hu (hi.known hu q hq i hii) (hi.res.items q hq i hii)
  · rw [hw, x5]
    intro r hr
    obtain ⟨j, hj, e⟩ := List.getElem_of_mem hr
    have := (List.forall₂_iff_get.1 x4).2 j (by rw [(List.forall₂_iff_get.1 x4).1]; exact hj) hj
    simp only [List.get_eq_getElem, e] at this
    show (x.map.val r).isSome
    rw [this.choose_spec.1]; rfl
  · rw [x5]
    intro u hu size cs rect
    obtain ⟨n, hn⟩ := Layout.sum_ok x2 x3 (Content.spaceWidth x.font size cs) u (fun r hr => Option.isSome_iff_exists.1 (hu r hr)) 0 (0, 0)
    unfold Content.createContent
    rw [hn]
    cases rect <;> rfl

theorem opPage_other {n : Nat} {k : Program.Call} (hk : isOther k = true) {o : Option Doc.Op} (h : Program.docOp n k = some o) :
    (∃ op, o = some op ∧ Doc.opPage op = true) ↔ needsPage (.other k) = true := by
  cases k with
  | object op =>
    simp only [Program.docOp] at h
    split at h
    · obtain rfl := Option.some.inj h
      cases op <;> simp_all [Program.objectOp, Doc.opPage, needsPage]
    · cases h
  | plain c =>
    simp only [Program.docOp, Option.map_eq_some_iff] at h
    obtain ⟨b, hb, rfl⟩ := h
    cases c <;> simp [Program.plainCall] at hb <;> subst hb <;> simp [Doc.opPage, needsPage]
  | text => simp [isOther] at hk
  | cell => simp [isOther] at hk
  | cellWithOption => simp [isOther] at hk
  | imageOpt img i tr mask =>
    simp only [Program.docOp, Option.some.injEq] at h
    subst h
    cases mask <;> simp [Doc.opPage, needsPage]
  | _ => simp only [Program.docOp, Option.some.injEq] at h; subst h; simp [Doc.opPage, needsPage]

theorem opFont_other {n : Nat} {k : Program.Call} (hk : isOther k = true) {op : Doc.Op} (h : Program.docOp n k = some (some op)) : Doc.opFont op = false := by
  cases k with
  | object op =>
    simp only [Program.docOp] at h
    split at h
    · obtain rfl := Option.some.inj (Option.some.inj h)
      cases op <;> simp_all [Program.objectOp, Doc.opFont]
    · cases h
  | plain c =>
    simp only [Program.docOp, Option.map_eq_some_iff] at h
    obtain ⟨b, hb, h⟩ := h
    cases b <;> simp at h
    subst h; rfl
  | text => simp [isOther] at hk
  | cell => simp [isOther] at hk
  | cellWithOption => simp [isOther] at hk
  | _ => simp only [Program.docOp, Option.some.injEq] at h; subst h; rfl

theorem notText_other {n : Nat} {k : Program.Call} (hk : isOther k = true) {o : Option Doc.Op} (h : Program.docOp n k = some o) {d : Doc.Doc} {en : Doc.Entry}
    {c : Content.Call} (hc : Program.contentCall d en k = some c) : Content.isText c = false := by
  by_contra hx
  rcases isText_call h hc (by simpa using hx) with ⟨t, rfl⟩ | ⟨r, t, rfl⟩ | ⟨r, t, op, tr, rfl⟩ <;> simp [isOther] at hk

end

end Verif.Typeset

namespace Verif.Props
open Typeset

/-- **C82** The whole story of panics: whatever program was run before - with well-formed fonts - the next call panics exactly if it
draws or measures text and no font was chosen, or it needs a page and none was added.  In particular no text, whatever its
characters, no picture, no transparency and no order of calls makes the library panic once there are a page and a font. -/
theorem call_panics {base : Content.Env} {prot : Bool} {ml mt : ℚ} {prog : List Typeset.Call} {s : Typeset.St} {calls : List Program.Call}
    (hrun : Typeset.steps base (Typeset.start prot ml mt) prog = some (s, calls)) (hok : ∀ c ∈ prog, c.Ok)
    (hfaces : ∀ f st face, Typeset.Call.addFont f st face ∈ prog → accepted face = true → GoodFace face ∧ Doc.noUnderline st = st)
    (c : Typeset.Call) (hc : Possible c) :
    Typeset.step base s c = none ↔
      (needsFont c = true ∧ (setting prog).face = none) ∨ (needsPage c = true ∧ prog.countP startsPage = 0) := by
  have hr : Layout.Reached base prot ml mt ⟨s, prog, calls⟩ := ⟨hrun, hok, hfaces⟩
  have hp := steps_pageOK prog 0 _ s calls (pageOK_start prot ml mt) hrun
  rw [Nat.zero_add] at hp
  have text : ∀ (t : List Nat) (f : List Nat → Program.Call) (g : Doc.Entry → List Nat → Content.Call) (op : Nat → Doc.Op), (∀ r ∈ t, IsScalar r) →
      s.prepare c = (s.addChars t).map (fun p => (p.1, some (f p.2))) → (∀ n t, Program.docOp n (f t) = some (some (op n))) →
      (∀ d en t, Program.contentCall d en (f t) = some (g en t)) → (∀ en t, Content.isText (g en t) = true ∧ Drawing.written (g en t) = t) →
      (∀ n, Doc.opFont (op n) = true ∧ Doc.opPage (op n) = true) →
      (Typeset.step base s c = none ↔ (setting prog).face = none ∨ prog.countP startsPage = 0) := by
    intro t f g op ht h1 h2 h3 h4 h5
    have hn := addChars_panic hr t
    cases ha : s.addChars t with
    | none =>
      rw [show (⟨s, prog, calls⟩ : Layout.Log).s.addChars t = none from ha] at hn
      simp only [Typeset.step, h1, ha, Option.map_none, true_iff]
      exact .inl (hn.1 rfl)
    | some p =>
      obtain ⟨fonts, out⟩ := p
      rw [show (⟨s, prog, calls⟩ : Layout.Log).s.addChars t = some (fonts, out) from ha] at hn
      have hf : (setting prog).face ≠ none := fun hx => by have := hn.2 hx; cases this
      obtain ⟨i, cn, l, hcf, -⟩ := addChars_cases ha
      simp only [Typeset.step, h1, ha, Option.map_some, Option.map_eq_none_iff]
      rw [Program.step_panics (h2 _ _) fun d en k hk => by
        rw [h3] at hk
        obtain rfl := Option.some.inj hk
        exact draws_text hr ht ha (h4 _ _).1 (h4 _ _).2]
      simp only [Option.some.injEq, exists_eq_left', Doc.step_panic hp.bare, (h5 _).1, (h5 _).2, true_and, hcf, reduceCtorEq, false_or, hf, hp.page]
  obtain ⟨ok, hc⟩ := hc
  cases c with
  | addFont f st face =>
    have hs : ∀ e b, Program.step e s.prog (.object (.addFont f st b)) ≠ none := by
      intro e b; cases b <;> simp [Program.step, Program.docOp, Program.objectOp, Doc.step, Program.contentCall]
    simp only [needsFont, needsPage, Bool.false_eq_true, false_and, or_self, iff_false]
    have hc := Embed.safe_load (k := face.useKerning) hc.1 hc.2
    simp only [Typeset.step, St.prepare]
    cases hl : TTF.load face.file face.useKerning with
    | ok i => simp only [Option.map_eq_none_iff]; exact hs _ _
    | error e =>
      cases e with
      | panic => exact absurd hl hc
      | err => simp only [Option.map_eq_none_iff]; exact hs _ _
      | notFound => simp only [Option.map_eq_none_iff]; exact hs _ _
  | text t =>
    rw [text t .text (fun _ t => .text t) .text ok rfl (fun _ _ => rfl) (fun _ _ _ => rfl) (fun _ _ => ⟨rfl, rfl⟩) (fun _ => ⟨rfl, rfl⟩)]
    simp [needsFont, needsPage]
  | cell r t =>
    rw [text t (.cell r) (fun _ t => .cell r t) .text ok rfl (fun _ _ => rfl) (fun _ _ _ => rfl) (fun _ _ => ⟨rfl, rfl⟩) (fun _ => ⟨rfl, rfl⟩)]
    simp [needsFont, needsPage]
  | cellWithOption r t opt tr =>
    rw [text t (fun t => .cellWithOption r t opt tr) (fun en t => .cellWithOption r t { opt with ext := if opt.ext = [] then [] else en.gs } (Program.ownTr tr en))
      (fun n => .cell n tr) ok rfl (fun _ _ => rfl) (fun _ _ _ => rfl) (fun _ _ => ⟨rfl, rfl⟩) (fun _ => ⟨rfl, rfl⟩)]
    simp [needsFont, needsPage]
  | measure t =>
    have hn := addChars_panic hr t
    simp only [needsFont, needsPage, Bool.false_eq_true, false_and, or_false, true_and]
    rw [← hn]
    simp only [Typeset.step, St.prepare]
    cases ha : s.addChars t with
    | none => simp
    | some p => simp
  | other k =>
    obtain ⟨h1, h2⟩ := hc
    obtain ⟨o, ho⟩ := Option.ne_none_iff_exists'.1 (h2 s.prog.next)
    simp only [Typeset.step, St.prepare, h1, if_true, Option.map_eq_none_iff]
    rw [Program.step_panics ho fun d en k' hk => Content.step_some (notText_other h1 ho hk), ← opPage_other h1 ho]
    simp only [needsFont, Bool.false_eq_true, false_and, false_or]
    constructor
    · rintro ⟨op, rfl, h3⟩
      rw [Doc.step_panic hp.bare, opFont_other h1 ho, hp.page] at h3
      exact ⟨⟨op, rfl, by simpa using (h3.resolve_left (by simp)).1⟩, (h3.resolve_left (by simp)).2⟩
    · rintro ⟨⟨op, rfl, h3⟩, h4⟩
      exact ⟨op, rfl, (Doc.step_panic hp.bare op).2 (.inr ⟨h3, hp.page.2 h4⟩)⟩

end Verif.Props
