import Verif.Lemmas.Layout.Split
import Verif.Props.TypesetMeasure
/- Measuring the same text twice, with the same settings, gives the same. -/
set_option maxRecDepth 10000
namespace Verif.Layout
open Typeset (texts Loaded Good GoodFace Instead Setting setting accepted Stands Gives Face)
open Props (IsScalar)

/-! ### Two states of a font -/

theorem val_same {a b : Loaded} (hf : GoodFace a.face) (he : a.face = b.face) (ha : Good a) (hb : Good b) {r x y : Nat}
    (hx : a.map.val r = some x) (hy : b.map.val r = some y) : x = y := by
  have hi : a.info = b.info := by
    have := ha.load
    rw [he, hb.load] at this
    exact (Except.ok.inj this).symm
  have h1 := Typeset.history_glyphs (s := a.face.source a.info) (f := a.face.subst) rfl hf.again ha.history r x hx
  have h2 := Typeset.history_glyphs (s := b.face.source b.info) (f := b.face.subst) rfl (he ▸ hf.again) hb.history r y hy
  rw [← he, ← hi] at h2
  rcases h1 with h1 | ⟨rfl, h1, -⟩ <;> rcases h2 with h2 | ⟨rfl, h2, -⟩
  · rw [h1] at h2; exact Except.ok.inj h2
  · exact absurd h1 (h2 _)
  · exact absurd h2 (h1 _)
  · rfl

theorem instead_same {a b : Loaded} (hf : GoodFace a.face) (he : a.face = b.face) (ha : Good a) (hb : Good b) {t u v : List Nat}
    (hu : List.Forall₂ (Instead a) t u) : List.Forall₂ (Instead b) t v → u = v := by
  intro hv
  induction hu generalizing v with
  | nil => cases hv; rfl
  | cons h _ ih =>
    cases hv with
    | cons h' hv =>
      rw [ih hv]
      congr 1
      have d1 := h.drawn hf ha
      have d2 := h'.drawn (he ▸ hf) hb
      rw [← he] at d2
      rcases d1 with ⟨⟨g, d1⟩, rfl⟩ | ⟨d1, rfl⟩ <;> rcases d2 with ⟨⟨g', d2⟩, rfl⟩ | ⟨d2, rfl⟩
      · rfl
      · exact absurd d1 (d2 g)
      · exact absurd d2 (d1 g')
      · rfl

theorem sum_same {a b : Loaded} (hf : GoodFace a.face) (he : a.face = b.face) (ha : Good a) (hb : Good b) (space : Int) : ∀ (u : List Nat),
    (∀ r ∈ u, ∃ g, a.map.val r = some g) → (∀ r ∈ u, ∃ g, b.map.val r = some g) → ∀ (i : Nat) (left : Nat × Nat),
    TextRun.sumWidth a.font.run space left (TextRun.withIndex i u) = TextRun.sumWidth b.font.run space left (TextRun.withIndex i u)
  | [], _, _, _, _ => rfl
  | r :: u, h1, h2, i, left => by
    have hi : a.info = b.info := by
      have := ha.load
      rw [he, hb.load] at this
      exact (Except.ok.inj this).symm
    obtain ⟨x, hx⟩ := h1 r (by simp)
    obtain ⟨y, hy⟩ := h2 r (by simp)
    obtain rfl := val_same hf he ha hb hx hy
    have ih := sum_same hf he ha hb space u (fun r hr => h1 r (by simp [hr])) (fun r hr => h2 r (by simp [hr])) (i + TextRun.utf8Len r) (r, x)
    have hk : TextRun.kernBefore a.font.run i r x left = TextRun.kernBefore b.font.run i r x left := by
      simp [TextRun.kernBefore, Loaded.font, Loaded.kern, he, hi]
    have hw : TextRun.glyphWidth a.font.run x = TextRun.glyphWidth b.font.run x := by
      have h1 : a.font.run.nHMetrics = b.font.run.nHMetrics := by simp [Loaded.font, hi]
      have h2 : a.font.run.widths = b.font.run.widths := by simp [Loaded.font, hi]
      have h3 : a.font.run.unitsPerEm = b.font.run.unitsPerEm := by simp [Loaded.font, hi]
      unfold TextRun.glyphWidth
      rw [h1, h2, h3]
    simp only [TextRun.withIndex, TextRun.sumWidth, show a.font.run.map = a.map from rfl, show b.font.run.map = b.map from rfl, hx, hy]
    rw [ih, hk, hw]

/-! ### Reached states -/

/-- The state after calls that a caller may make. -/
structure Reached (base : Content.Env) (prot : Bool) (ml mt : ℚ) (l : Log) : Prop where
  run : Typeset.steps base (Typeset.start prot ml mt) l.calls = some (l.s, l.drawn)
  ok : ∀ c ∈ l.calls, c.Ok
  faces : ∀ f st face, Typeset.Call.addFont f st face ∈ l.calls → accepted face = true → GoodFace face ∧ Doc.noUnderline st = st

section
variable {base : Content.Env} {prot : Bool} {ml mt : ℚ}

theorem Reached.go {l l' : Log} {cs : List Typeset.Call} (h : Reached base prot ml mt l) (hf : From base l l' cs) (ho : ∀ c ∈ cs, c.Ok)
    (hg : ∀ f st face, Typeset.Call.addFont f st face ∈ cs → accepted face = true → GoodFace face ∧ Doc.noUnderline st = st) :
    Reached base prot ml mt l' := by
  obtain ⟨h1, ds, h2, h3⟩ := hf
  refine ⟨?_, ?_, ?_⟩
  · rw [h1, steps_append, h.run]
    simp [h3, h2]
  · intro c hc
    rw [h1] at hc
    rcases List.mem_append.1 hc with hc | hc
    · exact h.ok c hc
    · exact ho c hc
  · intro f st face hc
    rw [h1] at hc
    rcases List.mem_append.1 hc with hc | hc
    · exact h.faces f st face hc
    · exact hg f st face hc

theorem Makes.ok {c : Typeset.Call} (h : Makes IsScalar c) : c.Ok := by
  obtain ⟨h1, h2⟩ := h
  cases c with
  | addFont => exact h1.elim
  | other => trivial
  | _ => exact h2

theorem Reached.makes {l l' : Log} {cs : List Typeset.Call} (h : Reached base prot ml mt l) (hf : From base l l' cs) (ho : ∀ c ∈ cs, Makes IsScalar c) :
    Reached base prot ml mt l' :=
  h.go hf (fun c hc => (ho c hc).ok) (fun _ _ _ hc => (ho _ hc).1.elim)

theorem Still.after {c : Typeset.Call} (h : Still c) (x : Setting) : x.after c = x := by
  unfold Setting.after
  rw [h.reg, h.sel]
  cases c with
  | other k =>
    cases k with
    | plain p => cases p <;> first | rfl | exact h.elim
    | setFont => exact h.elim
    | addPage => exact h.elim
    | _ => rfl
  | _ => rfl

theorem still_setting : ∀ (cs : List Typeset.Call) (x : Setting), (∀ c ∈ cs, Still c) → cs.foldl Setting.after x = x
  | [], _, _ => rfl
  | c :: cs, x, h => by rw [List.foldl_cons, (h c (by simp)).after]; exact still_setting cs x (fun c hc => h c (by simp [hc]))

theorem From.setting {l l' : Log} {cs : List Typeset.Call} (hf : From base l l' cs) (h : ∀ c ∈ cs, Still c) : setting l'.calls = setting l.calls := by
  rw [hf.1, Typeset.setting, List.foldl_append, still_setting cs _ h]
  rfl

theorem Reached.good {l : Log} (h : Reached base prot ml mt l) {f : Face} (hf : (setting l.calls).face = some f) : GoodFace f := by
  rcases Typeset.setting_face l.calls {} _ hf with h' | ⟨a, b, h'⟩ | ⟨a, b, h', h''⟩
  · cases h'
  · simp at h'
  · exact (h.faces a b _ h' h'').1

/-- What `AddChars` returns. -/
theorem Reached.chars {l : Log} (h : Reached base prot ml mt l) {t out : List Nat} {fonts : Nat → Option Loaded} (ht : ∀ r ∈ t, IsScalar r)
    (ha : l.s.addChars t = some (fonts, out)) : ∃ x : Loaded, (setting l.calls).face = some x.face ∧ GoodFace x.face ∧ Good x ∧
      List.Forall₂ (Instead x) t out ∧ (Typeset.St.env base { l.s with fonts := fonts }).fonts (l.s.prog.content.cur.font + 1) = x.font ∧
      Typeset.SizeOK base.cfg l.s (setting l.calls) := by
  obtain ⟨x, h1, h2, h3, h4, h5⟩ := Typeset.measured h.run h.ok (fun f st face a b => (h.faces f st face a b).2) ht ha
  exact ⟨x, h1, h.good h1, h2, h3, h4, h5⟩

theorem Instead.scalar {x : Loaded} (hx : Good x) {t out : List Nat} (h : List.Forall₂ (Instead x) t out) (ht : ∀ r ∈ t, IsScalar r) : ∀ r ∈ out, IsScalar r := by
  induction h with
  | nil => simp
  | cons h _ ih =>
    intro r hr
    rcases List.mem_cons.1 hr with rfl | hr
    · obtain ⟨-, -, rfl | ⟨-, rfl⟩⟩ := h
      · exact ht _ (by simp)
      · exact hx.subst _
    · exact ih (fun r hr => ht r (by simp [hr])) r hr

theorem create_same {l m : Log} (hl : Reached base prot ml mt l) (hm : Reached base prot ml mt m) (hs : setting l.calls = setting m.calls)
    {t : List Nat} (ht : ∀ r ∈ t, IsScalar r) {f g : Nat → Option Loaded} {u v : List Nat} (hu : l.s.addChars t = some (f, u))
    (hv : m.s.addChars t = some (g, v)) : u = v ∧
      Content.createContent ((Typeset.St.env base { l.s with fonts := f }).fonts (l.s.prog.content.cur.font + 1)) u l.s.prog.content.cur.fontSize l.s.prog.content.cur.charSpacing none =
      Content.createContent ((Typeset.St.env base { m.s with fonts := g }).fonts (m.s.prog.content.cur.font + 1)) v m.s.prog.content.cur.fontSize m.s.prog.content.cur.charSpacing none := by
  obtain ⟨a, a1, a2, a3, a4, a5, a6, a7⟩ := hl.chars ht hu
  obtain ⟨b, b1, b2, b3, b4, b5, b6, b7⟩ := hm.chars ht hv
  have he : a.face = b.face := by
    rw [hs, b1] at a1
    exact (Option.some.inj a1).symm
  obtain rfl := instead_same a2 he a3 b3 a4 b4
  refine ⟨rfl, ?_⟩
  have hi : a.info = b.info := by
    have := a3.load
    rw [he, b3.load] at this
    exact (Except.ok.inj this).symm
  have vals : ∀ {x : Loaded}, List.Forall₂ (Instead x) t u → ∀ r ∈ u, ∃ g, x.map.val r = some g := by
    intro x hx r hr
    obtain ⟨j, hj, e⟩ := List.getElem_of_mem hr
    have := (List.forall₂_iff_get.1 hx).2 j (by rw [(List.forall₂_iff_get.1 hx).1]; exact hj) hj
    simp only [List.get_eq_getElem, e] at this
    exact ⟨_, this.choose_spec.1⟩
  rw [a5, b5, a6, a7, b6, b7, hs]
  unfold Content.createContent
  have hsp : ∀ size cs, Content.spaceWidth a.font size cs = Content.spaceWidth b.font size cs := by
    intro size cs
    simp [Content.spaceWidth, Loaded.font, hi]
  have hty : ∀ size, Content.typo a.font.typoAscender a.font size - Content.typo a.font.typoDescender a.font size =
      Content.typo b.font.typoAscender b.font size - Content.typo b.font.typoDescender b.font size := by
    intro size
    simp [Content.typo, Loaded.font, hi]
  rw [hsp, sum_same a2 he a3 b3 _ u (vals a4) (vals b4), hty]

theorem width_same {l m : Log} (hl : Reached base prot ml mt l) (hm : Reached base prot ml mt m) (hs : setting l.calls = setting m.calls)
    {t : List Nat} (ht : ∀ r ∈ t, IsScalar r) {v w : ℚ} (hv : l.s.measureWidth base t = some v) (hw : m.s.measureWidth base t = some w) : v = w := by
  obtain ⟨⟨f, o⟩, a1, a2⟩ := Option.bind_eq_some_iff.1 hv
  obtain ⟨⟨g, p⟩, b1, b2⟩ := Option.bind_eq_some_iff.1 hw
  have := (create_same hl hm hs ht a1 b1).2
  simp only [Content.measureTextWidth] at a2 b2
  rw [this] at a2
  exact Option.some.inj (a2.symm.trans b2)

theorem height_same {l m : Log} (hl : Reached base prot ml mt l) (hm : Reached base prot ml mt m) (hs : setting l.calls = setting m.calls)
    {t : List Nat} (ht : ∀ r ∈ t, IsScalar r) {v w : ℚ} (hv : l.s.measureHeight base t = some v) (hw : m.s.measureHeight base t = some w) : v = w := by
  obtain ⟨⟨f, o⟩, a1, a2⟩ := Option.bind_eq_some_iff.1 hv
  obtain ⟨⟨g, p⟩, b1, b2⟩ := Option.bind_eq_some_iff.1 hw
  have := (create_same hl hm hs ht a1 b1).2
  simp only [Content.measureCellHeight] at a2 b2
  rw [this] at a2
  exact Option.some.inj (a2.symm.trans b2)

end

end Verif.Layout
