import Verif.Props.Align
/- C52: borders and underlines. -/
namespace Verif.Props
open Content Paint Drawing
open Units (toPoints fromPoints)

/-- A straight line, closed as the library does. -/
def stroked (a b : ℚ × ℚ) : PaintKind × List Seg := (.stroke, [.move a, .line b, .close])

/-- The sides asked for (4 top, 8 left, 2 right, 1 bottom) of the box with upper left corner `(x, y)`, width `w` and height `h`; the
horizontal ones reach half a line width `lw` beyond the corners, so that the corners are full. -/
def boxSides (x y w h lw : ℚ) (border : Nat) : List (PaintKind × List Seg) :=
  (if border &&& 4 = 4 then [stroked (x - lw / 2, y) (x + w + lw / 2, y)] else []) ++
  (if border &&& 8 = 8 then [stroked (x, y) (x, y - h)] else []) ++
  (if border &&& 2 = 2 then [stroked (x + w, y) (x + w, y - h)] else []) ++
  (if border &&& 1 = 1 then [stroked (x - lw / 2, y - h) (x + w + lw / 2, y - h)] else [])

/-- The value, or 1 for 0 (not set). -/
def orOne (v : ℚ) : ℚ := if v = 0 then 1 else v

/-- The bar under the text of a cell with upper left corner `(x, y)` and width `w`: the font's underline position (negative: below)
times its coefficient from a baseline that is the ascender and half the surplus of the font's height over the line height below the
upper edge; as thick as the font says, times its coefficient. -/
def underlineBar (f : Content.Font) (size : ℚ) (opt : CellOption) (x y w : ℚ) : PaintKind × List Seg :=
  let u : ℚ := size / f.run.unitsPerEm
  let leading := (f.ascender * u - f.descender * u - orOne opt.coefLineHeight * size) / 2
  (.fill, [.rect x (y - (f.ascender * u + leading) + f.underlinePosition * u * orOne opt.coefUnderlinePosition) w
    (f.underlineThickness * u * orOne opt.coefUnderlineThickness)])

/-- The shapes painted, in order, and the state they are painted in. -/
def shapes (l : List Mark) : List ((PaintKind × List Seg) × GState) := l.filterMap fun m => match m with
  | .shape k p g => some ((k, p), g)
  | _ => none

theorem shapes_append (a b : List Mark) : shapes (a ++ b) = shapes a ++ shapes b := by simp [shapes]

theorem shapes_show (wd : Widths) (g : GState) (f : Nat) (size : ℚ) : ∀ (l : List TextShow.Item) (pen : ℚ × ℚ),
    shapes (show' wd g f size pen l).2 = [] := by
  intro l
  induction l with
  | nil => intro pen; rfl
  | cons a l ih => intro pen; cases a <;> simp [show', shapes] at * <;> apply ih

/-- Runs and its shapes. -/
private def Draws (wd : Widths) (o : List Op) (f : GState → GState) (sh : GState → List ((PaintKind × List Seg) × GState)) : Prop :=
  ∃ k, Runs wd o f k ∧ ∀ g, shapes (k g) = sh g

private theorem Draws.append {wd : Widths} {a b : List Op} {f f' : GState → GState}
    {s s' : GState → List ((PaintKind × List Seg) × GState)} (h : Draws wd a f s) (h' : Draws wd b f' s') :
    Draws wd (a ++ b) (fun g => f' (f g)) (fun g => s g ++ s' (f g)) := by
  obtain ⟨k, h1, h2⟩ := h
  obtain ⟨k', h3, h4⟩ := h'
  exact ⟨_, h1.append h3, fun g => by rw [shapes_append, h2, h4]⟩

private theorem Draws.if {wd : Widths} {a : List Op} {s : GState → List ((PaintKind × List Seg) × GState)} (c : Prop) [Decidable c]
    (h : Draws wd a (fun g => g) s) : Draws wd (if c then a else []) (fun g => g) (fun g => if c then s g else []) := by
  split
  · exact h
  · exact ⟨_, Runs.nil, fun _ => rfl⟩

private theorem Draws.wrap {wd : Widths} {a : List Op} {f : GState → GState} {s : GState → List ((PaintKind × List Seg) × GState)}
    (h : Draws wd a f s) : Draws wd ([.q] ++ a ++ [.Q]) (fun g => g) s := by
  obtain ⟨k, h1, h2⟩ := h
  exact ⟨k, h1.wrap, h2⟩

private theorem Draws.gs (wd : Widths) (l : List Nat) : Draws wd (l.map Op.gs) (fun g => { g with ext := g.ext ++ l }) (fun _ => []) :=
  ⟨_, Runs.gs wd l, fun _ => rfl⟩

private theorem Draws.congr {wd : Widths} {a : List Op} {f f' : GState → GState} {s s' : GState → List ((PaintKind × List Seg) × GState)}
    (h : Draws wd a f s) (h1 : ∀ g, f g = f' g) (h2 : ∀ g, s g = s' g) : Draws wd a f' s' := by
  obtain ⟨k, h3, h4⟩ := h
  exact ⟨k, h3.congr h1 (fun _ => rfl), fun g => by rw [h4, h2]⟩

private theorem draws_line (wd : Widths) (x1 y1 x2 y2 : ℚ) :
    Draws wd (borderLine x1 y1 x2 y2) (fun g => g) (fun g => [(stroked (x1, y1) (x2, y2), g)]) :=
  ⟨_, Runs.border wd x1 y1 x2 y2, fun _ => rfl⟩

private theorem draws_border (wd : Widths) (t : TextItem) : Draws wd (borderOps t) (fun g => g) (fun g =>
    (boxSides t.x (t.pageHeight - t.y) t.cellWidth t.cellHeight t.lineWidth t.opt.border).map (·, g)) := by
  unfold borderOps
  refine Draws.congr ((((draws_line wd _ _ _ _).if _).append ((draws_line wd _ _ _ _).if _)).append ((draws_line wd _ _ _ _).if _)
    |>.append ((draws_line wd _ _ _ _).if _)) (fun _ => rfl) (fun g => ?_)
  simp only [boxSides, has, top, left, right, bottom, beq_iff_eq]
  split <;> split <;> split <;> split <;> rfl

private theorem orOne_eq (v : ℚ) : (if v ≠ 0 then v else 1) = orOne v := by
  unfold orOne; by_cases h : v = 0 <;> simp [h]

private theorem draws_underline (wd : Widths) (e : Env) (t : TextItem) : Draws wd (underlineOps e t) (fun g => g) (fun g =>
    [(underlineBar (e.fonts t.font) t.fontSize t.opt t.x (t.pageHeight - t.y) t.cellWidth, g)]) := by
  have hr : ∀ x y w h : ℚ, Runs wd [.re x y w h, .paint false .fill] (fun g => g) (fun g => [.shape .fill [.rect x y w h] g]) := by
    intro x y w h r hr
    simp [run_cons, run, exec, exec.finish, hr]
  refine ⟨_, hr _ _ _ _, fun g => ?_⟩
  simp only [shapes, List.filterMap_cons, List.filterMap_nil, underlineBar, orOne_eq, px, List.cons.injEq, Prod.mk.injEq, Seg.rect.injEq,
    and_true, true_and]
  refine ⟨?_, ?_⟩ <;> ring

private theorem draws_object (wd : Widths) (e : Env) (t : TextItem) :
    Draws wd ([.BT, .Td (calX t) (calY e t), .Tf t.font t.fontSize, .Tc t.charSpacing] ++ colourOps t ++ [.TJ (tjOf e t), .ET])
      (fun g => baseState t g) (fun _ => []) := by
  refine ⟨fun g => (show' wd (baseState t g) t.font t.fontSize (calX t, calY e t) (tjOf e t)).2, ?_, fun g => shapes_show _ _ _ _ _ _⟩
  intro r hr
  have h := run_textObject wd r hr (calX t) (calY e t) t.font t.fontSize t.charSpacing
    (if t.inColour then t.colour.map (·.colour) else none) (tjOf e t)
  unfold baseState colourOps
  cases hb : t.inColour
  · simp only [hb, Bool.false_eq_true, if_false, Option.map_none, Option.toList_none, zero_add, Option.getD_none] at h ⊢
    exact h
  · cases hcol : t.colour with
    | none =>
      simp only [hb, hcol, if_true, Option.map_none, Option.toList_none, zero_add, Option.getD_none] at h ⊢
      exact h
    | some c =>
      simp only [hb, hcol, if_true, Option.map_some, Option.toList_some, zero_add, Option.getD_some] at h ⊢
      exact h

private theorem draws_text (wd : Widths) (e : Env) (t : TextItem) : Draws wd (textOps e t) (textAfter t) (fun g =>
    ((if t.fontStyle &&& 4 = 4 then [underlineBar (e.fonts t.font) t.fontSize t.opt t.x (t.pageHeight - t.y) t.cellWidth] else []) ++
      boxSides t.x (t.pageHeight - t.y) t.cellWidth t.cellHeight t.lineWidth t.opt.border).map (·, textState t g)) := by
  have hin := ((draws_object wd e t).append ((draws_underline wd e t).if (has t.fontStyle underline))).append (draws_border wd t)
  have hshape : ∀ g : GState, ([] ++ (if has t.fontStyle underline = true then
      [(underlineBar (e.fonts t.font) t.fontSize t.opt t.x (t.pageHeight - t.y) t.cellWidth, g)] else [])) ++
      (boxSides t.x (t.pageHeight - t.y) t.cellWidth t.cellHeight t.lineWidth t.opt.border).map (·, g) =
      ((if t.fontStyle &&& 4 = 4 then [underlineBar (e.fonts t.font) t.fontSize t.opt t.x (t.pageHeight - t.y) t.cellWidth] else []) ++
      boxSides t.x (t.pageHeight - t.y) t.cellWidth t.cellHeight t.lineWidth t.opt.border).map (·, g) := by
    intro g
    by_cases hu : t.fontStyle &&& 4 = 4 <;> simp [has, underline, hu]
  by_cases hx : t.opt.ext = []
  · have : textOps e t = ([.BT, .Td (calX t) (calY e t), .Tf t.font t.fontSize, .Tc t.charSpacing] ++ colourOps t ++
        [.TJ (tjOf e t), .ET]) ++ (if has t.fontStyle underline then underlineOps e t else []) ++ borderOps t := by
      simp [textOps, hx]
    rw [this]
    refine hin.congr (fun g => ?_) (fun g => ?_)
    · simp [textAfter, textState, baseState, hx]
    · have : textState t g = baseState t g := by simp [textState, baseState, hx]
      rw [this]; exact hshape _
  · have hw := ((Draws.gs wd t.opt.ext).append hin).wrap
    have : textOps e t = [.q] ++ (t.opt.ext.map Op.gs ++ (([.BT, .Td (calX t) (calY e t), .Tf t.font t.fontSize, .Tc t.charSpacing] ++
        colourOps t ++ [.TJ (tjOf e t), .ET]) ++ (if has t.fontStyle underline then underlineOps e t else []) ++ borderOps t)) ++ [.Q] := by
      simp [textOps, hx]
    rw [this]
    refine hw.congr (fun g => ?_) (fun g => ?_)
    · simp [textAfter, hx]
    · have : textState t g = baseState t { g with ext := g.ext ++ t.opt.ext } := by simp [textState, baseState]
      rw [this, List.nil_append]; exact hshape _

/-- **C52** CellWithOption with a rectangle, in every document, after SetXY, in every unit: the shapes painted with the text are, if
the font style has underline, one bar at the font's underline position over the width of the rectangle, and then one line on every
side of the rectangle that the option asks for; nothing else. -/
theorem cell_decorations (e : Env) (height ml mt : ℚ) (calls : List Call) (s : St)
    (h : steps e (start height ml mt) calls = some s) (x y : ℚ) (r : Units.Rect) (text : List Nat) (opt : CellOption)
    (tr : Option (Option Nat)) (s' : St)
    (hc : steps e s [.setXY x y, .cellWithOption (some r) text opt tr] = some s') (wd : Widths) :
    let x0 := toPoints e.cfg x
    let y0 := s.cur.pageHeight - toPoints e.cfg y
    let W := (r.toPointsT e.cfg.unit).w
    let H := (r.toPointsT e.cfg.unit).h
    ∃ i : Item, s'.pages.getD s.page [] = s.pages.getD s.page [] ++ [i] ∧
      ∀ q : Reader, q.level = .page → ∃ q' : Reader, run wd q (ops e i) = some q' ∧ (shapes q'.marks).map (·.1) = (shapes q.marks).map (·.1) ++
        (if s.cur.fontStyle &&& 4 = 4 then [underlineBar (e.fonts (s.cur.font + 1)) s.cur.fontSize opt x0 y0 W] else []) ++
        boxSides x0 y0 W H s.cur.lineWidth opt.border := by
  have hp : s.page < s.pages.length := by
    have : ∀ (calls : List Call) (s s' : St), s.page < s.pages.length → steps e s calls = some s' →
        s'.page < s'.pages.length := by
      intro calls
      induction calls with
      | nil => intro s s' hp h; obtain rfl : s = s' := by simpa [steps] using h
               exact hp
      | cons c calls ih =>
        intro s s' hp h
        obtain ⟨s1, h1, h2⟩ := Option.bind_eq_some_iff.1 h
        exact ih s1 s' (did_page h1 hp) h2
    exact this calls _ s (by simp [start]) h
  have hm := steps_measured calls _ s h (by simp [start])
  let c1 : Cur := { s.cur with x := toPoints e.cfg x, y := toPoints e.cfg y, setXCount := s.cur.setXCount + 1 }
  let s1 : St := { s with cur := c1 }
  have hfresh := fresh_after_set (e := e) (s := s1) (fun p hpm t ht => Nat.lt_succ_of_le (hm p hpm t ht).2)
  have hst : s1.addText e (newText c1 true (some (r.toPointsT e.cfg.unit)) { opt with ext := opt.ext ++ transOf s1 tr }) text =
      some s' := by
    have : steps e s [.setXY x y, .cellWithOption (some r) text opt tr] =
      (s1.addText e (newText c1 true (some (r.toPointsT e.cfg.unit)) { opt with ext := opt.ext ++ transOf s1 tr }) text).bind some := rfl
    rw [this] at hc
    simpa using hc
  unfold St.addText at hst
  split at hst
  · exact absurd hst (by simp)
  next items xx yy hap =>
  obtain rfl := Option.some.inj hst
  obtain ⟨pre, c', t, hcase, hx, rfl, -, -⟩ := append_cases hap
  have hj := hfresh (newText c1 true (some (r.toPointsT e.cfg.unit)) { opt with ext := opt.ext ++ transOf s1 tr }) rfl
  rcases hcase with ⟨hpre, hs⟩ | ⟨hpre, rfl, -⟩
  · rw [hpre] at hj; simp [joinTarget, hs] at hj
  unfold extend at hx
  obtain ⟨q, hq, rfl⟩ := Option.map_eq_some_iff.1 hx
  have hq1 : q.1 = (r.toPointsT e.cfg.unit).w ∧ q.2.1 = (r.toPointsT e.cfg.unit).h := by
    unfold createContent at hq
    split at hq
    · exact absurd hq (by simp)
    · obtain rfl := Option.some.inj hq; exact ⟨rfl, rfl⟩
  dsimp only
  refine ⟨_, by rw [getD_set _ _ _ _ hp, if_pos rfl, ← hpre], fun q0 hq0 => ?_⟩
  obtain ⟨k, hk, hks⟩ := draws_text wd e { newText c1 true (some (r.toPointsT e.cfg.unit)) { opt with ext := opt.ext ++ transOf s1 tr } with
    text := [] ++ text, cellWidth := q.1, cellHeight := q.2.1, textWidth := q.2.2 }
  refine ⟨_, hk q0 hq0, ?_⟩
  simp only [shapes_append, List.map_append, hks, hq1.1, hq1.2, List.append_assoc]
  congr 1
  simp only [List.map_map, Function.comp_def, newText, c1, List.map_id']
  by_cases hu : s.cur.fontStyle &&& 4 = 4
  · simp only [hu, if_true, List.map_cons, List.map_nil]; rfl
  · simp only [hu, if_false, List.map_nil]

example : ∃ s s', steps demoEnv (start 800 10 10) [.setFont 0 4 10, .setLineWidth 2] = some s ∧
    steps demoEnv s [.setXY 50 60, .cellWithOption (some { w := 100, h := 20 }) [65, 66] { border := 15 } none] = some s' ∧
    boxSides 50 740 100 20 s.cur.lineWidth 15 = [stroked (49, 740) (151, 740), stroked (50, 740) (50, 720), stroked (150, 740) (150, 720),
      stroked (49, 720) (151, 720)] := by
  have h1 : (steps demoEnv (start 800 10 10) [.setFont 0 4 10, .setLineWidth 2]).isSome = true := by decide +kernel
  obtain ⟨s, hs⟩ := Option.isSome_iff_exists.1 h1
  have h2 : ((steps demoEnv (start 800 10 10) [.setFont 0 4 10, .setLineWidth 2]).bind fun s =>
      steps demoEnv s [.setXY 50 60, .cellWithOption (some { w := 100, h := 20 }) [65, 66] { border := 15 } none]).isSome = true := by decide +kernel
  have h3 : ((steps demoEnv (start 800 10 10) [.setFont 0 4 10, .setLineWidth 2]).map (·.cur.lineWidth)) = some 2 := by decide +kernel
  rw [hs] at h2 h3
  obtain ⟨s', hs'⟩ := Option.isSome_iff_exists.1 h2
  refine ⟨s, s', hs, hs', ?_⟩
  simp at h3
  rw [h3]; decide +kernel

/-- A font of 1000 units with an ascender of 800, a descender of -200 and an underline 100 below the baseline. -/
def underlineEnv : Env := { demoEnv with fonts := fun _ => { demoRunFont with ascender := 800, descender := -200, typoAscender := 800, typoDescender := -200, underlinePosition := -100, underlineThickness := 50 } }

/-- **C52** (counterexample)  Text puts its baseline at the cursor, but its underline where that of a cell with its upper edge at the
cursor would be: the bar of text at size 10 is 9 points below the baseline, though the font asks for 1. -/
theorem text_underline_fails :
    ((steps underlineEnv (start 800 0 0) [.setFont 0 4 10, .setXY 100 100, .text [65]]).bind fun s =>
      (run (fun _ _ => 600) {} (pageOps underlineEnv (s.pages.getD 0 []))).map fun r => (shapes r.marks).map (·.1)) =
      some [(.fill, [.rect 100 (800 - 100 - 9) 6 (1 / 2)])] := by decide +kernel

/-- **C52** (counterexample)  The bar does not follow the alignment: text at the right end of a cell is underlined over the whole cell,
and text at its lower edge at the upper edge. -/
theorem aligned_underline_fails :
    ((steps underlineEnv (start 800 0 0) [.setFont 0 4 10, .setXY 100 100, .cellWithOption (some { w := 200, h := 50 }) [65] { align := 2 ||| 1 } none]).bind fun s =>
      (run (fun _ _ => 600) {} (pageOps underlineEnv (s.pages.getD 0 []))).map fun r => ((shapes r.marks).map (·.1), r.marks.filterMap fun m => match m with | .glyph _ p _ => some p | _ => none)) =
      some ([(.fill, [.rect 100 (700 - 9) 200 (1 / 2)])], [(294, 652)]) := by decide +kernel

end Verif.Props
