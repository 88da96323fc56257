import Verif.Lemmas.Layout.Ruler
import Verif.Lemmas.SplitFit
/- C79: wrapped text stays in its column, by the widths of the caller's font. -/
set_option maxRecDepth 10000
namespace Verif.Props
open Typeset (Loaded Good GoodFace GoodKern Setting setting accepted Face Measures SpaceFor DrawnAs)
open Layout (Has Block)
open Column (inCell inUnit Filled)
open Wrap (Wraps)

/-- A program with its font files, and the state after its calls. -/
structure Typed (base : Content.Env) (prot : Bool) (ml mt : ℚ) (n : Nat) (prog : List Layout.Call) (s : Layout.St) : Prop where
  run : Layout.steps base n (Layout.start prot ml mt) prog = some s
  /-- text is valid Unicode -/
  texts : ∀ b, Has prog b → ∀ t ∈ b.texts, ∀ r ∈ t, IsScalar r
  subst : ∀ f st face, Has prog (.basic (.addFont f st face)) → ∀ r, IsScalar (face.subst r)
  faces : ∀ f st face, Has prog (.basic (.addFont f st face)) → accepted face = true →
    GoodFace face ∧ (face.useKerning = true → GoodKern face.file) ∧ Doc.noUnderline st = st

section
variable {base : Content.Env} {prot : Bool} {ml mt : ℚ} {n : Nat} {prog : List Layout.Call} {s : Layout.St}

private theorem Typed.made (h : Typed base prot ml mt n prog s) : Layout.Reached base prot ml mt s.log ∧
    ∀ f st face, Typeset.Call.addFont f st face ∈ s.log.calls → Has prog (.basic (.addFont f st face)) := by
  have hP : ∀ b, (Has prog b ∨ b = .basic (.other (.plain (.br 0)))) → Layout.Fine b := by
    rintro b (hb | rfl)
    · exact ⟨h.texts b hb, fun f st face e => h.subst f st face (e ▸ hb), fun f st face e ha =>
        ⟨(h.faces f st face (e ▸ hb) ha).1, (h.faces f st face (e ▸ hb) ha).2.2⟩⟩
    · exact ⟨by simp [Block.texts], (fun _ _ _ e => by cases e), (fun _ _ _ e => by cases e)⟩
  obtain ⟨cs, ps, h1, h2, h3, h4, h5⟩ := Layout.steps_made hP ⟨_, .inr rfl⟩ prog (s := Layout.start prot ml mt)
    (Layout.reached_start (base := base)) (by simp [Layout.start]) (by simp [Layout.start]) (fun b hb => .inl hb) h.run
  have hr := (Layout.reached_start (base := base) (prot := prot) (ml := ml) (mt := mt)).made hP h1 h2
  refine ⟨hr, fun f st face h' => ?_⟩
  have hc : s.log.calls = cs := by rw [h1.1]; rfl
  rw [hc] at h'
  rcases h2 _ h' with ⟨b', hb, hm⟩ | ⟨_, hm⟩
  · rcases hm with hm | ⟨_, _, _, hm⟩ | ⟨rfl, -⟩
    · exact hm.1.elim
    · cases hm
    · rcases hb with hb | hb
      · exact hb
      · cases hb
  · cases hm

/-- Fonts are added only by the program's own calls. -/
theorem Typed.added (h : Typed base prot ml mt n prog s) {f : Nat} {st : Nat} {face : Face} (hm : Typeset.Call.addFont f st face ∈ s.log.calls) :
    Has prog (.basic (.addFont f st face)) := h.made.2 _ _ _ hm

theorem Typed.reached (h : Typed base prot ml mt n prog s) : Layout.Reached base prot ml mt s.log ∧
    ∀ f, (setting s.log.calls).face = some f → f.useKerning = true → GoodKern f.file := by
  refine ⟨h.made.1, fun f hf => ?_⟩
  rcases Typeset.setting_face s.log.calls {} _ hf with h' | ⟨a, b, h'⟩ | ⟨a, b, h', ha⟩
  · cases h'
  · simp at h'
  · exact (h.faces _ _ _ (h.added h') ha).2.1

/-- `wrapped_by_width`, for a log. -/
theorem wrapped_log {l : Layout.Log} (hr : Layout.Reached base prot ml mt l)
    (hk : ∀ f, (setting l.calls).face = some f → f.useKerning = true → GoodKern f.file) {r : Units.Rect} {t : List Nat} {opt : Content.CellOption}
    {b : Content.BreakOption} {tr : Option Doc.Tr} (ht : ∀ c ∈ t, IsScalar c) (hb : ∀ c ∈ b.separator, IsScalar c) (hne : t ≠ []) {l' : Layout.Log}
    (hcall : Layout.multiCellOpt base n l r t opt b tr = some l') :
    ∃ (face : Face) (space : Int) (width : List Nat → Int) (sep : Int) (lines : List (List Nat)),
      (setting l.calls).face = some face ∧ SpaceFor face.file (setting l.calls).size (Units.toPoints base.cfg (setting l.calls).spacing) space ∧
      (∀ u, (∀ c ∈ u, c ∈ t) → Measures face space none u (width u)) ∧ Measures face space none b.separator sep ∧
      (∃ cs, l'.calls = l.calls ++ cs ∧ cs.filterMap inCell = lines.map fun a => (r.w, a)) ∧
      Wraps { exceeds := fun line c => decide (inUnit base.cfg (setting l.calls).size (width line + width [c]) > r.w)
              indicator := match b.mode with | .strict => none | .indicator => some b.indicator
              separator := b.separator
              sepFits := fun line c => decide (inUnit base.cfg (setting l.calls).size (width line + width [c] + sep) ≤ r.w) } lines t ∧
      ∀ a ∈ lines, Split.FitLine
        { exceeds := fun line c => decide (inUnit base.cfg (setting l.calls).size (width line + width [c]) > r.w)
          separator := b.separator
          sepFits := fun line c => decide (inUnit base.cfg (setting l.calls).size (width line + width [c] + sep) ≤ r.w) } t a := by
  unfold Layout.multiCellOpt at hcall
  obtain ⟨lh, h1, hcall⟩ := Option.bind_eq_some_iff.1 hcall
  obtain ⟨l1, h2, hcall⟩ := Option.bind_eq_some_iff.1 hcall
  rw [if_neg hne] at hcall
  obtain ⟨⟨l2, lines⟩, h3, hcall⟩ := Option.bind_eq_some_iff.1 hcall
  obtain ⟨⟨fonts, out⟩, ha, -⟩ := Option.bind_eq_some_iff.1 h1
  obtain ⟨x, width, x1, x2, x3, x4, x5, x6⟩ := Layout.ruler hr hk ht ha
  have m1 : Layout.Makes IsScalar (.measure t) := ⟨trivial, ht⟩
  have f1 := Layout.act_from h2
  have r1 : Layout.Reached base prot ml mt l1 := hr.makes f1 (by simpa using m1)
  have s1 : setting l1.calls = setting l.calls := f1.setting (by simpa using m1.1)
  obtain ⟨cs, c1, c2⟩ := Layout.splitText_quiet h3
  unfold Layout.splitText at h3
  obtain ⟨⟨sw, l3⟩, h4, h3⟩ := Option.bind_eq_some_iff.1 h3
  have m3 : Layout.Makes IsScalar (.measure b.separator) := ⟨trivial, hb⟩
  have f3 := (Layout.measure_from h4).1
  have r3 : Layout.Reached base prot ml mt l3 := r1.makes f3 (by simpa using m3)
  have s3 : setting l3.calls = setting l.calls := (f3.setting (by simpa using m3.1)).trans s1
  -- the separator
  obtain ⟨⟨fonts', out'⟩, ha', -⟩ := Option.bind_eq_some_iff.1 (Layout.measure_from h4).2
  obtain ⟨y, width', y1, y2, y3, y4, y5, y6⟩ := Layout.ruler r1 (by rw [s1]; exact hk) hb ha'
  rw [s1] at y1 y5 y6
  have hface : y.face = x.face := Option.some.inj (y1.symm.trans x1)
  have hi : y.info = x.info := by
    have := y3.load
    rw [hface, x3.load] at this
    exact (Except.ok.inj this).symm
  have hsp : ∀ size cs, Content.spaceWidth y.font size cs = Content.spaceWidth x.font size cs := by
    intro size cs
    simp [Content.spaceWidth, Loaded.font, hi]
  have hsep := y5 b.separator (fun c hc => .inl hc)
  rw [hface, hsp] at hsep
  have hsw : sw = inUnit base.cfg (setting l.calls).size (width' b.separator) :=
    y6 l1 r1 s1 b.separator (fun c hc => .inl hc) sw (Layout.measure_from h4).2
  have hrun := Layout.splitLoop_run (l0 := l) (f := fun u => inUnit base.cfg (setting l.calls).size (width u)) ht
    (fun m hm hs u hu v hv => x6 m hm hs u (fun c hc => .inl (hu c hc)) v hv) n r3 s3 (Layout.SInv.start _ _ _ hne) h3
  have hw := split_is_wrapping _ t lines ⟨hne, n, hrun⟩
  have hfit := Split.returns_fit (lines := lines) ⟨hne, n, hrun⟩
  have add : ∀ i j : Int, inUnit base.cfg (setting l.calls).size (i + j) =
      inUnit base.cfg (setting l.calls).size i + inUnit base.cfg (setting l.calls).size j := by
    intro i j
    unfold inUnit Units.fromPoints
    split <;> (push_cast; ring)
  refine ⟨x.face, _, width, width' b.separator, lines, x1, Typeset.space_for x2 x3 _ _, fun u hu => x5 u (fun c hc => .inl (hu c hc)), hsep, ?_, ?_, ?_⟩
  · refine ⟨_, by rw [(Layout.acts_from _ hcall).1, c1, f1.1, List.append_assoc, List.append_assoc], ?_⟩
    rw [List.filterMap_append, List.filterMap_append, Layout.cells_option]
    rw [c2]
    rfl
  · convert hw using 1
    simp only [Split.Cfg.opts, Layout.measuring, Wrap.Opts.mk.injEq]
    refine ⟨?_, rfl, trivial, ?_⟩
    · funext line c
      rw [add]
    · funext line c
      rw [hsw, add, add]
  · intro a ha
    have := hfit a ha
    unfold Split.FitLine at this ⊢
    simp only [Layout.measuring, hsw, ← add] at this
    exact this

/-- **C79** MultiCellWithOption, whatever was called before it, breaks a text into lines by the widths that the file of the current font gives:
each line is put in one cell, as wide as the rectangle, and the lines are a legal wrapping (Verif/Spec/Wrap.lean) where a line is full
if its width and that of the next character - in thousandths of the size, with the character spacing, kerning within the line if the
caller asked for it - are together more than the width of the rectangle. -/
theorem wrapped_by_width (h : Typed base prot ml mt n prog s) {r : Units.Rect} {t : List Nat} {opt : Content.CellOption}
    {b : Content.BreakOption} {tr : Option Doc.Tr} (ht : ∀ c ∈ t, IsScalar c) (hb : ∀ c ∈ b.separator, IsScalar c) (hne : t ≠ []) {l' : Layout.Log}
    (hcall : Layout.multiCellOpt base n s.log r t opt b tr = some l') :
    ∃ (face : Face) (space : Int) (width : List Nat → Int) (sep : Int) (lines : List (List Nat)),
      (setting s.log.calls).face = some face ∧ SpaceFor face.file (setting s.log.calls).size (Units.toPoints base.cfg (setting s.log.calls).spacing) space ∧
      (∀ u, (∀ c ∈ u, c ∈ t) → Measures face space none u (width u)) ∧ Measures face space none b.separator sep ∧
      (∃ cs, l'.calls = s.log.calls ++ cs ∧ cs.filterMap inCell = lines.map fun l => (r.w, l)) ∧
      Wraps { exceeds := fun line c => decide (inUnit base.cfg (setting s.log.calls).size (width line + width [c]) > r.w)
              indicator := match b.mode with | .strict => none | .indicator => some b.indicator
              separator := b.separator
              sepFits := fun line c => decide (inUnit base.cfg (setting s.log.calls).size (width line + width [c] + sep) ≤ r.w) } lines t :=
  have ⟨face, space, width, sep, lines, h1, h2, h3, h4, h5, h6, _⟩ := wrapped_log h.reached.1 h.reached.2 ht hb hne hcall
  ⟨face, space, width, sep, lines, h1, h2, h3, h4, h5, h6⟩

/-! ### Without kerning -/

/-- The width of a text and that of a character after it add up if the caller did not ask for kerning. -/
theorem measures_snoc {f : Face} (hk : f.useKerning = false) {space : Int} {u v : List Nat} {m : Int} (hv : Measures f space none v m) :
    ∀ {left : Option (Nat × Nat)} {n : Int}, Measures f space left u n → Measures f space left (u ++ v) (n + m) := by
  have any : ∀ left : Option (Nat × Nat), Measures f space left v m := by
    intro left
    cases hv with
    | nil => exact .nil
    | @cons _ r r' g w k n rest a1 a2 a3 a4 a5 =>
      refine .cons a1 a2 a3 ?_ a5
      cases left with
      | none => exact a4
      | some p => simpa [Typeset.PairKern, hk] using a4
  intro left n hu
  induction hu with
  | nil => simpa using any _
  | @cons left r r' g w k n rest a1 a2 a3 a4 a5 ih =>
    have := Measures.cons a1 a2 a3 a4 ih
    rw [show (w : Int) + k + space + n + m = w + k + space + (n + m) by ring]
    exact this

/-- `wrapped_lines_fit`, for a log. -/
theorem wrapped_log_fit {l : Layout.Log} (hr : Layout.Reached base prot ml mt l) {r : Units.Rect} {t : List Nat} {opt : Content.CellOption}
    {b : Content.BreakOption} {tr : Option Doc.Tr} (ht : ∀ c ∈ t, IsScalar c) (hb : b.separator = []) (hne : t ≠ [])
    (hkern : ∀ face, (setting l.calls).face = some face → face.useKerning = false) {l' : Layout.Log}
    (hcall : Layout.multiCellOpt base n l r t opt b tr = some l') :
    ∃ (face : Face) (space : Int) (cs : List Typeset.Call), (setting l.calls).face = some face ∧
      SpaceFor face.file (setting l.calls).size (Units.toPoints base.cfg (setting l.calls).spacing) space ∧ l'.calls = l.calls ++ cs ∧
      ∀ w line, (w, line) ∈ cs.filterMap inCell → w = r.w ∧ (line ≠ [] →
        ∃ m, Measures face space none line m ∧ inUnit base.cfg (setting l.calls).size m ≤ r.w) := by
  obtain ⟨face, space, width, sep, lines, h1, h2, h3, -, ⟨cs, h4, h5⟩, h6, -⟩ := wrapped_log hr (fun f hf e => by simp [hkern f hf] at e) ht (by simp [hb]) hne hcall
  refine ⟨face, space, cs, h1, h2, h4, fun w line hl => ?_⟩
  rw [h5] at hl
  obtain ⟨a, hl1, hl2⟩ := List.mem_map.1 hl
  obtain ⟨rfl, rfl⟩ := Prod.mk.inj hl2
  refine ⟨rfl, fun hne' => ?_⟩
  have hmem : ∀ c ∈ a, c ∈ t := fun c hc =>
    (Split.Wraps.sublist (by simp [hb]) h6).subset (List.mem_flatten.2 ⟨a, hl1, hc⟩)
  obtain ⟨pre, c, rfl⟩ : ∃ pre c, a = pre ++ [c] := ⟨a.dropLast, a.getLast hne', (List.dropLast_append_getLast hne').symm⟩
  have hp := Split.Wraps.placed (by simp [hb]) h6 _ hl1 pre c [] rfl
  refine ⟨width pre + width [c], measures_snoc (hkern face h1) (h3 [c] (by simpa using hmem c (by simp))) (h3 pre fun c hc => hmem c (by simp [hc])), ?_⟩
  simpa using hp

/-- **C79** No line of MultiCellWithOption is wider than the rectangle: if the caller did not ask for kerning and gives no separator, the width of every
line - that of the glyphs in the font file, with the character spacing - is at most the width of the rectangle. -/
theorem wrapped_lines_fit (h : Typed base prot ml mt n prog s) {r : Units.Rect} {t : List Nat} {opt : Content.CellOption}
    {b : Content.BreakOption} {tr : Option Doc.Tr} (ht : ∀ c ∈ t, IsScalar c) (hb : b.separator = []) (hne : t ≠ [])
    (hkern : ∀ face, (setting s.log.calls).face = some face → face.useKerning = false) {l' : Layout.Log}
    (hcall : Layout.multiCellOpt base n s.log r t opt b tr = some l') :
    ∃ (face : Face) (space : Int) (cs : List Typeset.Call), (setting s.log.calls).face = some face ∧
      SpaceFor face.file (setting s.log.calls).size (Units.toPoints base.cfg (setting s.log.calls).spacing) space ∧ l'.calls = s.log.calls ++ cs ∧
      ∀ w line, (w, line) ∈ cs.filterMap inCell → w = r.w ∧ (line ≠ [] →
        ∃ m, Measures face space none line m ∧ inUnit base.cfg (setting s.log.calls).size m ≤ r.w) :=
  wrapped_log_fit h.reached.1 ht hb hne hkern hcall

/-! ### MultiCell -/

/-- **C79** MultiCell, whatever was called before it, breaks a text into lines by the widths that the file of the current font gives.  It goes over
the characters that are drawn (a character that the font does not have is replaced by its substitute): the lines begin with the first
character and leave out none until the height is used up.  No line could take the first character of the next one; within a line every
character but the first had room.  Text is left out only where one more line would be too high. -/
theorem cells_by_width (h : Typed base prot ml mt n prog s) {r : Units.Rect} {t : List Nat} (ht : ∀ c ∈ t, IsScalar c) {l' : Layout.Log}
    (hcall : Layout.multiCell base s.log r t = some l') :
    ∃ (face : Face) (space : Int) (width : List Nat → Int) (lh : ℚ) (out : List Nat) (lines : List (List Nat)) (lost : List Nat),
      (setting s.log.calls).face = some face ∧ SpaceFor face.file (setting s.log.calls).size (Units.toPoints base.cfg (setting s.log.calls).spacing) space ∧
      List.Forall₂ (DrawnAs face) t out ∧ s.log.s.measureHeight base t = some lh ∧
      (∀ u, (∀ c ∈ u, c ∈ out) → Measures face space none u (width u)) ∧
      (∃ cs, l'.calls = s.log.calls ++ cs ∧ cs.filterMap inCell = lines.map fun l => (r.w, l)) ∧ lines.flatten ++ lost = out ∧
      Filled (fun line c => decide (inUnit base.cfg (setting s.log.calls).size (width line + width [c]) > r.w)) lines ∧
      (lost ≠ [] → r.h < (lines.length + 1) * lh) := by
  obtain ⟨hr, hk⟩ := h.reached
  unfold Layout.multiCell at hcall
  obtain ⟨lh, h1, hcall⟩ := Option.bind_eq_some_iff.1 hcall
  obtain ⟨⟨fonts, out⟩, ha, hcall⟩ := Option.bind_eq_some_iff.1 hcall
  obtain ⟨l1, h2, hcall⟩ := Option.bind_eq_some_iff.1 hcall
  obtain ⟨x, width, x1, x2, x3, x4, x5, x6⟩ := Layout.ruler hr hk ht ha
  have m1 : Layout.Makes IsScalar (.measure t) := ⟨trivial, ht⟩
  have f1 := Layout.act_from h2
  have r1 : Layout.Reached base prot ml mt l1 := hr.makes f1 (by simpa using m1)
  have s1 : setting l1.calls = setting s.log.calls := f1.setting (by simpa using m1.1)
  have hsc : ∀ c ∈ out, IsScalar c := Layout.Instead.scalar x3 x4 ht
  obtain ⟨cs, c1, c2, c3⟩ := Layout.multiCellLoop_cells (l0 := s.log) (S := fun c => c ∈ out)
    (f := fun u => inUnit base.cfg (setting s.log.calls).size (width u)) hsc
    (fun m hm hs u hu v hv => x6 m hm hs u (fun c hc => .inr (hu c hc)) v hv) out (line := []) (n := 0) r1 s1 (by simp) (fun c hc => hc)
    (by simpa using hcall)
  have add : ∀ i j : Int, inUnit base.cfg (setting s.log.calls).size (i + j) =
      inUnit base.cfg (setting s.log.calls).size i + inUnit base.cfg (setting s.log.calls).size j := by
    intro i j
    unfold inUnit Units.fromPoints
    split <;> (push_cast; ring)
  simp only [← add] at c3
  generalize hex : (fun (a : List Nat) (c : Nat) => decide (inUnit base.cfg (setting s.log.calls).size (width a + width [c]) > r.w)) = ex at c3 ⊢
  generalize hov : (fun n : Nat => decide ((n : ℚ) * lh + lh > r.h)) = over at c3
  have hflat : (Content.broken ex over 0 [] out).1.flatten ++ (Content.broken ex over 0 [] out).2 = out := by
    by_cases ho : out = []
    · subst ho; simp [Content.broken]
    · simpa using Content.broken_flatten ex over out [] 0 ho
  refine ⟨x.face, _, width, lh, out, (Content.broken ex over 0 [] out).1, (Content.broken ex over 0 [] out).2, x1, Typeset.space_for x2 x3 _ _, ?_, h1,
    fun u hu => x5 u (fun c hc => .inr (hu c hc)), ⟨_, by rw [c1.1, f1.1, List.append_assoc], ?_⟩, hflat, ⟨?_, ?_⟩, ?_⟩
  · exact x4.imp fun a b hab => hab.drawn x2 x3
  · rw [List.filterMap_append, c3]; rfl
  · subst hex
    intro i a b hi hj
    exact Content.broken_greedy _ over out [] 0 i a b hi hj
  · subst hex
    exact Content.broken_fit _ over out [] 0 (by simp)
  · intro hl
    subst hov
    have := (Content.broken_height ex _ out [] 0).1 hl
    simp only [zero_add, decide_eq_true_eq] at this
    rw [add_mul, one_mul]
    exact this

/-- **C79** No line of MultiCell of more than one character is wider than the rectangle, if the caller did not ask for kerning. -/
theorem cells_fit (h : Typed base prot ml mt n prog s) {r : Units.Rect} {t : List Nat} (ht : ∀ c ∈ t, IsScalar c)
    (hkern : ∀ face, (setting s.log.calls).face = some face → face.useKerning = false) {l' : Layout.Log}
    (hcall : Layout.multiCell base s.log r t = some l') :
    ∃ (face : Face) (space : Int) (cs : List Typeset.Call), (setting s.log.calls).face = some face ∧
      SpaceFor face.file (setting s.log.calls).size (Units.toPoints base.cfg (setting s.log.calls).spacing) space ∧ l'.calls = s.log.calls ++ cs ∧
      ∀ w line, (w, line) ∈ cs.filterMap inCell → w = r.w ∧ (2 ≤ line.length →
        ∃ m, Measures face space none line m ∧ inUnit base.cfg (setting s.log.calls).size m ≤ r.w) := by
  obtain ⟨face, space, width, lh, out, lines, lost, h1, h2, -, -, h3, ⟨cs, h4, h5⟩, h6, h7, -⟩ := cells_by_width h ht hcall
  refine ⟨face, space, cs, h1, h2, h4, fun w line hl => ?_⟩
  rw [h5] at hl
  obtain ⟨l, hl1, hl2⟩ := List.mem_map.1 hl
  obtain ⟨rfl, rfl⟩ := Prod.mk.inj hl2
  refine ⟨rfl, fun hlen => ?_⟩
  have hmem : ∀ c ∈ l, c ∈ out := fun c hc => by
    rw [← h6]
    exact List.mem_append.2 (.inl (List.mem_flatten.2 ⟨l, hl1, hc⟩))
  have hne' : l ≠ [] := by rintro rfl; simp at hlen
  obtain ⟨pre, c, rfl⟩ : ∃ pre c, l = pre ++ [c] := ⟨l.dropLast, l.getLast hne', (List.dropLast_append_getLast hne').symm⟩
  have hp := h7.fit _ hl1 pre c (List.prefix_refl _) (by rintro rfl; simp at hlen)
  refine ⟨width pre + width [c], measures_snoc (hkern face h1) (h3 [c] (by simpa using hmem c (by simp))) (h3 pre fun c hc => hmem c (by simp [hc])), ?_⟩
  simpa using hp

end

end Verif.Props
