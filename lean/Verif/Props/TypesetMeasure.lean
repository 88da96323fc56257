import Verif.Lemmas.Embed.Info
import Verif.Lemmas.Program.Wishes
import Verif.Model.TypesetMeasure
import Verif.Props.Measure
/- C65: the measured width of a text, in terms of the caller's font file. -/
set_option maxRecDepth 10000
namespace Verif.Typeset
open Doc (NoUL Base Reachable Grow Obj)
open TTF (glyphOf)

/-! ### Sums of widths -/

/-- How a character is drawn: as itself, or as its substitute. -/
def Instead (l : Loaded) (r r' : Nat) : Prop :=
  ∃ g, l.map.val r' = some g ∧ (r' = r ∨ (glyphOf l.info.font.cmap r = .error .notFound ∧ r' = l.face.subst r))

theorem Instead.drawn {l : Loaded} (hf : GoodFace l.face) (hg : Good l) {r r' : Nat} (h : Instead l r r') : DrawnAs l.face r r' := by
  obtain ⟨g, h1, h2⟩ := h
  have hc := gives_cases hf.file.tags hf.cmap (load_font hg.load) r
  rcases h2 with rfl | ⟨h2, rfl⟩
  · rcases history_glyphs (s := l.face.source l.info) (f := l.face.subst) rfl hf.again hg.history r' g h1 with h | ⟨-, h, h'⟩
    · rcases hc with ⟨g', h3, h4⟩ | ⟨h3, h4⟩
      · exact .inl ⟨⟨_, h4⟩, rfl⟩
      · rw [show glyphOf l.info.font.cmap r' = .ok g from h] at h3; cases h3
    · rcases hc with ⟨g', h3, h4⟩ | ⟨h3, h4⟩
      · exact absurd h3 (h g')
      · exact .inr ⟨h4, h'.symm⟩
  · rcases hc with ⟨g', h3, h4⟩ | ⟨h3, h4⟩
    · rw [h2] at h3; cases h3
    · exact .inr ⟨h4, rfl⟩

theorem pairKern_of {l : Loaded} (hf : GoodFace l.face) (hg : Good l) (hk : l.face.useKerning = true → GoodKern l.face.file) (i r g : Nat) (left : Nat × Nat) :
    PairKern l.face (if i = 0 then none else some left) (r, g) (TextRun.kernBefore l.font.run i r g left) := by
  unfold TextRun.kernBefore
  by_cases hi : i = 0
  · rw [if_pos hi, if_neg (by omega)]; exact rfl
  · rw [if_neg hi]
    cases hu : l.face.useKerning with
    | false =>
      rw [if_neg (by simp [Loaded.font, hu])]
      simp [PairKern, hu]
    | true =>
      rw [if_pos ⟨by omega, by simp [Loaded.font, hu]⟩]
      have hload := hg.load
      rw [hu] at hload
      have hem := (load_ok hf.file.tags hg.load).em
      simp only [PairKern, hu, if_true]
      refine ⟨l.info.kernValue left.2 g, l.info.font.unitsPerEm, kern_value hf.file.tags (hk hu) hload _ _, hem, ?_⟩
      simp only [Loaded.font, Loaded.kern, hu, if_true]
      exact toPdfUnit_eq _ (hf.em _ hem)

theorem utf8Len_pos (r : Nat) : 0 < TextRun.utf8Len r := by unfold TextRun.utf8Len; split <;> (try split) <;> (try split) <;> omega

theorem sum_measures {l : Loaded} (hf : GoodFace l.face) (hg : Good l) (hk : l.face.useKerning = true → GoodKern l.face.file) (space : Int) :
    ∀ (t out : List Nat), List.Forall₂ (Instead l) t out → ∀ (i : Nat) (left : Nat × Nat) (n : Int),
      TextRun.sumWidth l.font.run space left (TextRun.withIndex i out) = .ok n → Measures l.face space (if i = 0 then none else some left) t n := by
  intro t out h
  induction h with
  | nil =>
    intro i left n h
    simp only [TextRun.withIndex, TextRun.sumWidth, Except.ok.injEq] at h
    subst h; exact .nil
  | @cons r r' t out hr _ ih =>
    intro i left n h
    obtain ⟨g, hm, hrr⟩ := id hr
    simp only [TextRun.withIndex, TextRun.sumWidth, show l.font.run.map = l.map from rfl, hm] at h
    obtain ⟨w, w1, w2⟩ := glyphWidth_ok hf hg.load g
    rw [w1] at h
    simp only at h
    split at h
    · cases h
    · next m hm2 =>
      simp only [Except.ok.injEq] at h
      subst h
      have := ih _ _ _ hm2
      rw [if_neg (by have := utf8Len_pos r'; omega)] at this
      exact .cons (hr.drawn hf hg) (stands hf hg.load hg.history hrr hm) w2 (pairKern_of hf hg hk i r' g left) this

/-! ### Settings -/

/-- Size and spacing in the state are the caller's. -/
def SizeOK (cfg : Units.Cfg) (s : St) (x : Setting) : Prop :=
  s.prog.content.cur.fontSize = x.size ∧ s.prog.content.cur.charSpacing = Units.toPoints cfg x.spacing

theorem size_plain {e : Content.Env} {s s' : Content.St} {c : Content.Call} (h : Content.step e s c = some s') (hn : ∀ f st size, c ≠ .setFont f st size) :
    s'.cur.fontSize = (match c with | .setFontSize v => v | _ => s.cur.fontSize) ∧
    s'.cur.charSpacing = (match c with | .setCharSpacing v => Units.toPoints e.cfg v | _ => s.cur.charSpacing) := by
  have hs := Content.step_style h
  simp only [Content.curStyle, Drawing.Style.mk.injEq] at hs
  cases c with
  | setFont f st size => exact absurd rfl (hn f st size)
  | setTextColour c => cases c <;> simpa [Drawing.Style.after] using ⟨congrArg Drawing.Style.size hs, congrArg Drawing.Style.spacing hs⟩
  | _ => exact ⟨congrArg Drawing.Style.size hs, congrArg Drawing.Style.spacing hs⟩

/-- The size after a call other than SetFont. -/
def sizeAfter : Program.Call → ℚ → ℚ
  | .plain (.setFontSize v), _ => v
  | _, old => old

def spacingAfter (cfg : Units.Cfg) : Program.Call → ℚ → ℚ
  | .plain (.setCharSpacing v), _ => Units.toPoints cfg v
  | _, old => old

theorem cur_same {s s' : Program.St} {e : Content.Env} {pc : Program.Call} (h : Program.step e s pc = some s') (hf : ∀ f st size, pc ≠ .setFont f st size) :
    s'.content.cur.fontSize = sizeAfter pc s.content.cur.fontSize ∧
    s'.content.cur.charSpacing = spacingAfter e.cfg pc s.content.cur.charSpacing := by
  have pen : ∀ d en k o, Program.docOp s.next pc = some o → Program.contentCall d en pc = some k → Content.step e s.content k = some s'.content →
      s'.content.cur.fontSize = sizeAfter pc s.content.cur.fontSize ∧
      s'.content.cur.charSpacing = spacingAfter e.cfg pc s.content.cur.charSpacing := by
    intro d en k o ho hk hs
    cases pc with
    | setFont f st size => exact absurd rfl (hf f st size)
    | plain c =>
      simp only [Program.contentCall, Option.some.injEq] at hk
      subst hk
      have := size_plain hs (by
        rintro f st size rfl
        simp [Program.docOp, Program.plainCall] at ho)
      cases c <;> exact this
    | object op => simp [Program.contentCall] at hk
    | setColourSpace n =>
      simp only [Program.contentCall, Option.map_eq_some_iff] at hk
      obtain ⟨_, _, rfl⟩ := hk
      exact size_plain hs (by simp)
    | image i j =>
      simp only [Program.contentCall, Option.map_eq_some_iff] at hk
      obtain ⟨_, _, rfl⟩ := hk
      exact size_plain hs (by simp)
    | imageOpt i j t m =>
      simp only [Program.contentCall, Option.map_eq_some_iff] at hk
      obtain ⟨_, _, rfl⟩ := hk
      exact size_plain hs (by simp)
    | _ =>
      simp only [Program.contentCall, Option.some.injEq] at hk
      subst hk
      exact size_plain hs (by simp)
  have same : ∀ op, Program.docOp s.next pc = some (some op) → s'.content = s.content →
      s'.content.cur.fontSize = sizeAfter pc s.content.cur.fontSize ∧
      s'.content.cur.charSpacing = spacingAfter e.cfg pc s.content.cur.charSpacing := by
    intro op ho hs
    rw [hs]
    cases pc with
    | plain c => cases c <;> first | exact ⟨rfl, rfl⟩ | simp [Program.docOp, Program.plainCall] at ho
    | _ => exact ⟨rfl, rfl⟩
  cases Program.step_made h with
  | pen a1 k a2 a3 a4 a5 => exact pen _ _ _ _ a1 a2 a4
  | err op a1 a2 a3 => exact same op a1 a3
  | quiet op a1 a2 a3 a4 => exact same op a1 a4
  | both op a1 a2 k a3 a4 => exact pen _ _ _ _ a1 a3 a4

theorem cur_setFont {s s' : Program.St} {e : Content.Env} {f st : Nat} {size : ℚ} (h : Program.step e s (.setFont f st size) = some s') :
    s'.content.cur.charSpacing = s.content.cur.charSpacing ∧
    s'.content.cur.fontSize = if (Doc.findFrom (Doc.isFont f st) 0 s.doc.objs).isSome then size else s.content.cur.fontSize := by
  have hfont : Doc.step s.doc (.setFont f st) = (if (Doc.findFrom (Doc.isFont f st) 0 s.doc.objs).isSome then ((s.doc.setFont f st).1, .ok) else (s.doc, .err)) := by
    simp only [Doc.step]
    unfold Doc.Doc.setFont
    rcases hfind : Doc.findFrom (Doc.isFont f st) 0 s.doc.objs with _ | ⟨i, o⟩
    · simp
    · obtain ⟨j, h1, h2, h3, -⟩ := Doc.findFrom_some hfind
      cases o <;> first | (simp [Doc.isFont] at h3; done) | skip
      simp
  cases Program.step_made h with
  | pen a1 k a2 a3 a4 a5 => simp [Program.docOp] at a1
  | err op a1 a2 a3 =>
    simp only [Program.docOp, Option.some.injEq] at a1
    subst a1
    rw [hfont] at a2
    split at a2
    · simp at a2
    · next hn => rw [a3, if_neg hn]; exact ⟨rfl, rfl⟩
  | quiet op a1 a2 a3 a4 => simp [Program.contentCall] at a3
  | both op a1 a2 k a3 a4 =>
    simp only [Program.docOp, Option.some.injEq] at a1
    subst a1
    rw [hfont] at a2
    split at a2
    · next hn =>
      simp only [Program.contentCall, Option.some.injEq] at a3
      subst a3
      have hs := Content.step_style a4
      simp only [Content.curStyle, Drawing.Style.after, Drawing.Style.mk.injEq] at hs
      rw [if_pos hn]
      exact ⟨hs.2.2.1, hs.2.1⟩
    · simp at a2

theorem step_size {base : Content.Env} {s s' : St} {c : Call} {k : Option Program.Call} {x : Setting} (h : step base s c = some (s', k))
    (hr : RegOK s x.reg) (hx : SizeOK base.cfg s x) : SizeOK base.cfg s' (x.after c) := by
  obtain ⟨x1, x2⟩ := hx
  rcases step_inv h with ⟨-, h1, t, rfl⟩ | ⟨pc, -, h1, h2⟩
  · unfold SizeOK; rw [h1]; exact ⟨x1, x2⟩
  · by_cases hp : ∃ f st size, pc = .setFont f st size
    · obtain ⟨f, st, size, rfl⟩ := hp
      obtain ⟨rfl, -⟩ := prepare_setFont h2
      obtain ⟨c1, c2⟩ := cur_setFont h1
      refine ⟨?_, by rw [c1]; exact x2⟩
      rw [c2, x1]
      simp only [Setting.after]
      rcases pick_find hr f st with ⟨j, a, b, c, d, e, y, p1, p2, -⟩ | ⟨p1, p2⟩
      · rw [p1, p2]; rfl
      · rw [p1, p2]; rfl
    · obtain ⟨c1, c2⟩ := cur_same h1 (fun f st size e => hp ⟨f, st, size, e⟩)
      cases c with
      | addFont f st face =>
        simp only [St.prepare] at h2
        split at h2 <;> simp only [Option.some.injEq, Prod.mk.injEq, reduceCtorEq] at h2
        all_goals
          obtain ⟨-, rfl⟩ := h2
          exact ⟨c1.trans x1, c2.trans x2⟩
      | measure t =>
        simp only [St.prepare, Option.map_eq_some_iff] at h2
        obtain ⟨_, _, he⟩ := h2
        simp at he
      | other k =>
        simp only [St.prepare] at h2
        split at h2
        · simp only [Option.some.injEq, Prod.mk.injEq] at h2
          obtain ⟨-, rfl⟩ := h2
          have e1 : (x.after (.other k)).size = sizeAfter k x.size := by
            cases k with
            | setFont f st size => exact absurd ⟨f, st, size, rfl⟩ hp
            | plain k => cases k <;> rfl
            | _ => rfl
          have e2 : Units.toPoints base.cfg (x.after (.other k)).spacing = spacingAfter base.cfg k (Units.toPoints base.cfg x.spacing) := by
            cases k with
            | plain k => cases k <;> rfl
            | _ => rfl
          exact ⟨by rw [c1, x1, e1], by rw [c2, x2, e2]; rfl⟩
        · cases h2
      | _ =>
        simp only [St.prepare, Option.map_eq_some_iff] at h2
        obtain ⟨_, _, he⟩ := h2
        simp only [Prod.mk.injEq, Option.some.injEq] at he
        obtain ⟨-, rfl⟩ := he
        exact ⟨c1.trans x1, c2.trans x2⟩

theorem setting_final {base : Content.Env} : ∀ (prog : List Call) (x : Setting) (s s' : St) (calls : List Program.Call),
    Inv base s → (∀ c ∈ prog, c.Ok) → RegOK s x.reg → CurOK s x.face → SizeOK base.cfg s x → steps base s prog = some (s', calls) →
    RegOK s' (prog.foldl Setting.after x).reg ∧ CurOK s' (prog.foldl Setting.after x).face ∧ SizeOK base.cfg s' (prog.foldl Setting.after x)
  | [], x, s, s', calls, hi, _, hr, hc, hx, h => by
    simp only [steps, Option.some.injEq, Prod.mk.injEq] at h
    obtain ⟨rfl, rfl⟩ := h
    exact ⟨hr, hc, hx⟩
  | c :: prog, x, s, s', calls, hi, hok, hr, hc, hx, h => by
    obtain ⟨s1, pk, calls', h1, h2, rfl⟩ := steps_cons h
    have hok1 := hok c (by simp)
    exact setting_final prog _ s1 s' calls' (step_sim hi hok1 h1).1 (fun x hx => hok x (by simp [hx])) (step_reg hi hok1 h1 hr)
      (step_select hi hok1 h1 hr hc) (step_size h1 hr hx) h2

theorem size_start (cfg : Units.Cfg) (prot : Bool) (ml mt : ℚ) : SizeOK cfg (start prot ml mt) {} := by
  refine ⟨rfl, ?_⟩
  show (0 : ℚ) = Units.toPoints cfg 0
  simp [Units.toPoints]

theorem setting_reg : ∀ (prog : List Call) (x : Setting), (prog.foldl Setting.after x).reg = prog.foldl registerFont x.reg
  | [], _ => rfl
  | _ :: prog, _ => setting_reg prog _

theorem setting_face : ∀ (prog : List Call) (x : Setting) (f : Face), (prog.foldl Setting.after x).face = some f →
    x.face = some f ∨ (∃ a b, (a, b, f) ∈ x.reg) ∨ ∃ a b, Call.addFont a b f ∈ prog ∧ accepted f = true
  | [], x, f, h => .inl h
  | c :: prog, x, f, h => by
    have reg : ∀ a b, (a, b, f) ∈ registerFont x.reg c → (∃ a b, (a, b, f) ∈ x.reg) ∨ ∃ a b, Call.addFont a b f ∈ c :: prog ∧ accepted f = true := by
      intro a b hm
      cases c with
      | addFont a' b' g =>
        simp only [registerFont] at hm
        split at hm
        · next ha =>
          rcases List.mem_append.1 hm with hm | hm
          · exact .inl ⟨a, b, hm⟩
          · simp only [List.mem_singleton, Prod.mk.injEq] at hm
            obtain ⟨rfl, rfl, rfl⟩ := hm
            exact .inr ⟨a, b, by simp, ha⟩
        · exact .inl ⟨a, b, hm⟩
      | _ => exact .inl ⟨a, b, hm⟩
    rcases setting_face prog _ f h with h1 | ⟨a, b, h1⟩ | ⟨a, b, h1, h2⟩
    · change selectFont x.reg x.face c = some f at h1
      by_cases hc : ∃ a b size, c = .other (.setFont a b size)
      · obtain ⟨a, b, size, rfl⟩ := hc
        simp only [selectFont] at h1
        split at h1
        · next y hy =>
          simp only [Option.some.injEq] at h1
          subst h1
          simp only [pick, Option.map_eq_some_iff] at hy
          obtain ⟨z, hz, rfl⟩ := hy
          exact .inr (.inl ⟨z.1, z.2.1, List.mem_of_find?_eq_some hz⟩)
        · exact .inl h1
      · left
        rw [← h1]
        cases c with
        | other k => cases k <;> first | rfl | exact absurd ⟨_, _, _, rfl⟩ hc
        | _ => rfl
    · exact .inr (reg a b h1)
    · exact .inr (.inr ⟨a, b, List.mem_cons_of_mem _ h1, h2⟩)

/-- What is measured after a program: the text as it is drawn, in the current font of the caller. -/
theorem measured {base : Content.Env} {prot : Bool} {ml mt : ℚ} {prog : List Call} {s : St} {calls : List Program.Call} {t out : List Nat}
    {fonts : Nat → Option Loaded} (hrun : steps base (start prot ml mt) prog = some (s, calls)) (hok : ∀ c ∈ prog, c.Ok)
    (hst : ∀ f st face, Call.addFont f st face ∈ prog → accepted face = true → Doc.noUnderline st = st)
    (ht : ∀ r ∈ t, Props.IsScalar r) (ha : s.addChars t = some (fonts, out)) :
    ∃ l, (setting prog).face = some l.face ∧ Good l ∧ List.Forall₂ (Instead l) t out ∧
      (St.env base { s with fonts := fonts }).fonts (s.prog.content.cur.font + 1) = l.font ∧ SizeOK base.cfg s (setting prog) := by
  have hi0 := inv_start base prot ml mt
  obtain ⟨hr, hcur, hx⟩ := setting_final prog {} _ s calls hi0 hok (reg_start prot ml mt) (cur_start prot ml mt) (size_start base.cfg prot ml mt) hrun
  have hi := (steps_sim prog _ s calls hi0 hok hrun).1
  have hu : NoUL s.prog.doc := by
    intro i f st c cid u hf
    rw [setting_reg] at hr
    obtain ⟨face, f1, f2, -⟩ := font_given hr hf
    exact hst _ _ _ f1 f2
  have add := addChars_added hi ha ht
  obtain ⟨i, c, l, hc, hl, ho, hfonts⟩ := addChars_cases ha
  have hnew : fonts i = some { l with map := (TTF.addChars (l.face.source l.info) l.map t).1 } := by rw [hfonts]; exact Function.update_self ..
  obtain ⟨l0, h0, h1⟩ := hcur i c hc
  rw [hl, Option.some.injEq] at h0
  subst h0
  obtain ⟨x, x1, x2, x3⟩ := (Doc.reachable_names hi.res.reach).cur hu i c hc
  refine ⟨{ l with map := (TTF.addChars (l.face.source l.info) l.map t).1 }, h1, add.good i _ hnew, ?_, ?_, hx⟩
  · have good := hi.good i l hl
    obtain ⟨q1, q2⟩ := Props.drawn_chars_in_map good.history ho ht (by
      intro f hf r
      simp only [Face.source, Option.some.injEq] at hf
      subst hf
      exact good.subst r)
    rw [List.forall₂_iff_get]
    refine ⟨by simp [q1], fun j h1 h2 => ?_⟩
    obtain ⟨r', g, a1, a2, a3⟩ := q2 j t[j] (List.getElem?_eq_getElem h1)
    rw [List.getElem?_eq_getElem h2, Option.some.injEq] at a1
    simp only [List.get_eq_getElem]
    rw [a1]
    refine ⟨g, a2, ?_⟩
    rcases a3 with a3 | ⟨a3, f, a4, a5⟩
    · exact .inl a3
    · simp only [Face.source, Option.some.injEq] at a4
      subst a4
      exact .inr ⟨a3, a5⟩
  · rw [hi.res.font i c hc, ← x3]
    exact fontNo_mem _ (counts_nodup hi.res.reach) x1 (by rw [x2]; exact hnew)

theorem space_for {l : Loaded} (hf : GoodFace l.face) (hg : Good l) (size cs : ℚ) : SpaceFor l.face.file size cs (Content.spaceWidth l.font size cs) := by
  have hem := (load_ok hf.file.tags hg.load).em
  refine ⟨?_, fun hs hc => ⟨_, hem, ?_⟩⟩
  · rintro rfl
    simp [Content.spaceWidth, Content.truncQ, TextRun.toPdfUnit]
  · exact Content.spacing_bound l.font size cs hs (Nat.pos_of_ne_zero (hf.em _ hem)) hc

end Verif.Typeset

namespace Verif.Props
open Typeset

/-- **C65** MeasureTextWidth returns the width of the text in the current font: for every character the width the font file gives
its glyph, and the kerning of the file's table with the character before if the caller asked for kerning, in thousandths of the
size, rounded down; with the character spacing, in the unit of the document. -/
theorem measured_width {base : Content.Env} {prot : Bool} {ml mt : ℚ} {prog : List Typeset.Call} {s : Typeset.St} {calls : List Program.Call}
    (hrun : Typeset.steps base (Typeset.start prot ml mt) prog = some (s, calls)) (hok : ∀ c ∈ prog, c.Ok)
    (hfaces : ∀ f st face, Typeset.Call.addFont f st face ∈ prog → accepted face = true →
      GoodFace face ∧ (face.useKerning = true → GoodKern face.file) ∧ Doc.noUnderline st = st)
    {t : List Nat} (ht : ∀ r ∈ t, IsScalar r) {w : ℚ} (hw : s.measureWidth base t = some w) :
    ∃ face space n, (setting prog).face = some face ∧ Measures face space none t n ∧
      SpaceFor face.file (setting prog).size (Units.toPoints base.cfg (setting prog).spacing) space ∧
      w = Units.fromPoints base.cfg (n * ((setting prog).size / 1000)) := by
  unfold St.measureWidth at hw
  obtain ⟨⟨fonts, out⟩, ha, hw⟩ := Option.bind_eq_some_iff.1 hw
  obtain ⟨l, h1, h2, h3, h4, h5, h6⟩ := measured hrun hok (fun f st face a b => (hfaces f st face a b).2.2) ht ha
  have hface : GoodFace l.face ∧ (l.face.useKerning = true → GoodKern l.face.file) := by
    rcases setting_face prog {} _ h1 with h | ⟨a, b, h⟩ | ⟨a, b, h, h'⟩
    · cases h
    · simp at h
    · exact ⟨(hfaces a b _ h h').1, (hfaces a b _ h h').2.1⟩
  simp only [Content.measureTextWidth] at hw
  rw [h4, h5, h6] at hw
  unfold Content.createContent at hw
  split at hw
  · simp at hw
  · next n hn =>
    simp only [Option.map_some, Option.some.injEq] at hw
    exact ⟨l.face, _, n, h1, sum_measures hface.1 h2 hface.2 _ t out h3 0 (0, 0) n hn, space_for hface.1 h2 _ _, hw.symm⟩

/-- **C65** MeasureCellHeightByText returns the typographical ascent less the typographical descent (`OS/2`) of the current font,
for the current size, in the unit of the document: the same for every text. -/
theorem measured_height {base : Content.Env} {prot : Bool} {ml mt : ℚ} {prog : List Typeset.Call} {s : Typeset.St} {calls : List Program.Call}
    (hrun : Typeset.steps base (Typeset.start prot ml mt) prog = some (s, calls)) (hok : ∀ c ∈ prog, c.Ok)
    (hfaces : ∀ f st face, Typeset.Call.addFont f st face ∈ prog → accepted face = true → GoodFace face ∧ Doc.noUnderline st = st)
    {t : List Nat} (ht : ∀ r ∈ t, IsScalar r) {h : ℚ} (hh : s.measureHeight base t = some h) :
    ∃ face u asc desc, (setting prog).face = some face ∧ UnitsPerEm face.file u ∧ Metric face.file "OS/2" 68 asc ∧
      Metric face.file "OS/2" 70 desc ∧ h = Units.fromPoints base.cfg ((asc - desc) / u * (setting prog).size) := by
  unfold St.measureHeight at hh
  obtain ⟨⟨fonts, out⟩, ha, hw⟩ := Option.bind_eq_some_iff.1 hh
  obtain ⟨l, h1, h2, h3, h4, h5, h6⟩ := measured hrun hok (fun f st face a b => (hfaces f st face a b).2) ht ha
  have hface : GoodFace l.face := by
    rcases setting_face prog {} _ h1 with h | ⟨a, b, h⟩ | ⟨a, b, h, h'⟩
    · cases h
    · simp at h
    · exact (hfaces a b _ h h').1
  have P := load_ok hface.file.tags h2.load
  simp only [Content.measureCellHeight] at hw
  rw [h4, h5, h6] at hw
  unfold Content.createContent at hw
  split at hw
  · simp at hw
  · next n hn =>
    simp only [Option.map_some, Option.some.injEq] at hw
    refine ⟨l.face, _, _, _, h1, P.em, P.typoAsc, P.typoDesc, ?_⟩
    rw [← hw]
    congr 1
    simp only [Content.typo, Loaded.font]
    ring

/-- A font file whose characters have one glyph each determines the width of a text. -/
theorem measures_unique {f : Face} (hf : GoodFace f) (hk : f.useKerning = true → GoodKern f.file)
    (hu : ∀ r g g', Gives f.file r g → Gives f.file r g' → g = g') {space : Int} {left : Option (Nat × Nat)} {t : List Nat} {n m : Int}
    (h : Measures f space left t n) (h' : Measures f space left t m) : n = m := by
  have em : ∀ u v, UnitsPerEm f.file u → UnitsPerEm f.file v → u = v := by
    rintro u v ⟨a, b, h1, h2⟩ ⟨c, d, h3, h4⟩
    obtain ⟨rfl, rfl⟩ := Embed.HasTable_fun hf.file.tags h1 h3
    exact TTF.U16_fun h2 h4
  have stands : ∀ r g g', Stands f r g → Stands f r g' → g = g' := by
    intro r g g' h h'
    cases h with
    | own a => cases h' with
      | own b => exact hu _ _ _ a b
      | substitute b _ => exact absurd a (b _)
      | missing b _ => exact absurd a (b _)
    | substitute a a' => cases h' with
      | own b => exact absurd b (a _)
      | substitute _ b => exact hu _ _ _ a' b
      | missing _ b => exact absurd a' (b _)
    | missing a a' => cases h' with
      | own b => exact absurd b (a _)
      | substitute _ b => exact absurd b (a' _)
      | missing _ _ => rfl
  induction h generalizing m with
  | nil => cases h'; rfl
  | @cons left r r' g w k n rest a1 a2 a3 a4 a5 ih =>
    cases h' with
    | @cons _ _ s' g' w' k' n' _ b1 b2 b3 b4 b5 =>
      obtain rfl := stands _ _ _ a2 b2
      have : r' = s' := by
        rcases a1 with ⟨⟨x, hx⟩, rfl⟩ | ⟨hx, rfl⟩ <;> rcases b1 with ⟨⟨y, hy⟩, rfl⟩ | ⟨hy, rfl⟩
        · rfl
        · exact absurd hx (hy _)
        · exact absurd hy (hx _)
        · rfl
      subst this
      have : w = w' := by
        obtain ⟨u, v, p1, ⟨hh, hl, mm, ml, nn, q1, q2, q3, q4, q5⟩, rfl⟩ := a3
        obtain ⟨u', v', p1', ⟨hh', hl', mm', ml', nn', q1', q2', q3', q4', q5'⟩, rfl⟩ := b3
        obtain rfl := em _ _ p1 p1'
        obtain ⟨rfl, rfl⟩ := Embed.HasTable_fun hf.file.tags q1 q1'
        obtain ⟨rfl, rfl⟩ := Embed.HasTable_fun hf.file.tags q4 q4'
        obtain rfl := TTF.U16_fun q2 q2'
        obtain rfl := TTF.U16_fun q5 q5'
        rfl
      subst this
      have : k = k' := by
        cases left with
        | none => simp only [PairKern] at a4 b4; rw [a4, b4]
        | some p =>
          simp only [PairKern] at a4 b4
          cases huk : f.useKerning with
          | false => simp only [huk, Bool.false_eq_true, if_false] at a4 b4; rw [a4, b4]
          | true =>
            simp only [huk, if_true] at a4 b4
            obtain ⟨v, u, c1, c2, rfl⟩ := a4
            obtain ⟨v', u', c1', c2', rfl⟩ := b4
            obtain rfl := em _ _ c2 c2'
            have : v = v' := by
              rcases c1 with ⟨k1, i, o1, e1⟩ | ⟨o1, rfl⟩ <;> rcases c1' with ⟨k2, j, o2, e2⟩ | ⟨o2, rfl⟩
              · obtain ⟨_, t1, -⟩ := id o1
                obtain ⟨_, t2, -⟩ := id o2
                obtain ⟨rfl, rfl⟩ := Embed.HasTable_fun hf.file.tags t1 t2
                exact (hk huk).unique _ _ _ _ _ _ _ o1 e1 e2
              · exact absurd e1 (o2 _ _ _ o1)
              · exact absurd e2 (o1 _ _ _ o2)
              · rfl
            rw [this]
      subst this
      rw [ih b5]

end Verif.Props
