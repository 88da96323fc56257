import Verif.Model.Content
/- Executing the operators of the items. -/
namespace Verif.Content
open Paint

theorem run_append (wd : Widths) : ∀ (a b : List Op) (r : Reader), run wd r (a ++ b) = (run wd r a).bind fun r' => run wd r' b := by
  intro a
  induction a with
  | nil => intro b r; rfl
  | cons o a ih =>
    intro b r
    simp only [List.cons_append, run]
    cases exec wd r o with
    | none => rfl
    | some r' => simp [ih]

theorem run_cons (wd : Widths) (o : Op) (b : List Op) (r : Reader) :
    run wd r (o :: b) = (exec wd r o).bind fun r' => run wd r' b := rfl

/-- Applying graphics state dictionaries at page level. -/
theorem run_gs (wd : Widths) : ∀ (ext : List Nat) (r : Reader), r.level = .page →
    run wd r (ext.map Op.gs) = some { r with g := { r.g with ext := r.g.ext ++ ext } } := by
  intro ext
  induction ext with
  | nil => intro r _; simp [run]
  | cons n ext ih =>
    intro r h
    simp only [List.map_cons, run_cons, exec, exec.state, h, Option.bind_some]
    rw [ih _ rfl]
    simp [h]

/-- The path of a polygon. -/
def segs (h : ℚ) : List (ℚ × ℚ) → List Seg
  | [] => []
  | p :: rest => .move (p.1, h - p.2) :: rest.map fun p => .line (p.1, h - p.2)

theorem run_lines (wd : Widths) (h : ℚ) : ∀ (pts : List (ℚ × ℚ)) (r : Reader) (p : List Seg), r.level = .path p →
    run wd r (pts.map fun p => Op.l (p.1, h - p.2)) =
      some { r with level := .path (p ++ pts.map fun p => .line (p.1, h - p.2)) } := by
  intro pts
  induction pts with
  | nil => intro r p hr; simp [run, ← hr]
  | cons a pts ih =>
    intro r p hr
    simp only [List.map_cons, run_cons, exec, exec.extend, hr, Option.bind_some]
    rw [ih _ _ rfl]
    simp

theorem run_path (wd : Widths) (h : ℚ) (pts : List (ℚ × ℚ)) (hne : pts ≠ []) (r : Reader) (hr : r.level = .page) :
    run wd r (pathOps h pts) = some { r with level := .path (segs h pts) } := by
  cases pts with
  | nil => exact absurd rfl hne
  | cons a pts =>
    simp only [pathOps, run_cons, exec, hr, Option.bind_some]
    rw [run_lines wd h pts _ _ rfl]
    simp [segs]

/-- The reader after a text object at page level: pen ignored, marks added. -/
theorem run_textObject (wd : Widths) (r : Reader) (hr : r.level = .page) (x y : ℚ) (f : Nat) (size cs : ℚ)
    (col : Option Colour) (items : List TextShow.Item) :
    let g := { r.g with font := some (f, size), charSpace := cs, fill := col.getD r.g.fill }
    run wd r ([.BT, .Td x y, .Tf f size, .Tc cs] ++ (col.map Op.fillColour).toList ++ [.TJ items, .ET]) =
      some { r with g := g, marks := r.marks ++ (show' wd g f size (0 + x, 0 + y) items).2 } := by
  cases col <;> simp [run_cons, run, exec, exec.state, hr]

/-- A sequence of operators that, at page level, paints and returns to page level, changing the graphics state by
`f` and adding the marks `k`. -/
def Runs (wd : Widths) (ops : List Op) (f : GState → GState) (k : GState → List Mark) : Prop :=
  ∀ r : Reader, r.level = .page → run wd r ops = some { r with g := f r.g, marks := r.marks ++ k r.g }

theorem Runs.append {wd : Widths} {a b : List Op} {f f' : GState → GState} {k k' : GState → List Mark}
    (h : Runs wd a f k) (h' : Runs wd b f' k') : Runs wd (a ++ b) (fun g => f' (f g)) (fun g => k g ++ k' (f g)) := by
  intro r hr
  rw [run_append, h r hr, Option.bind_some]
  refine (h' ⟨f r.g, r.stack, r.level, r.marks ++ k r.g⟩ hr).trans ?_
  simp

theorem Runs.nil {wd : Widths} : Runs wd [] (fun g => g) (fun _ => []) := by
  intro r _; simp [run]

/-- Wrapping in `q` and `Q` discards the changes. -/
theorem Runs.wrap {wd : Widths} {a : List Op} {f : GState → GState} {k : GState → List Mark} (h : Runs wd a f k) :
    Runs wd ([.q] ++ a ++ [.Q]) (fun g => g) k := by
  intro r hr
  simp only [List.singleton_append, List.cons_append, List.nil_append, run_cons, exec, hr, if_true, Option.bind_some]
  rw [run_append, h _ rfl, Option.bind_some]
  simp [run_cons, run, exec]

theorem Runs.gs (wd : Widths) (ext : List Nat) : Runs wd (ext.map Op.gs) (fun g => { g with ext := g.ext ++ ext }) (fun _ => []) := by
  intro r hr
  rw [run_gs wd ext r hr]; simp

theorem Runs.border (wd : Widths) (x1 y1 x2 y2 : ℚ) : Runs wd (borderLine x1 y1 x2 y2) (fun g => g)
    (fun g => [.shape .stroke [.move (x1, y1), .line (x2, y2), .close] g]) := by
  intro r hr
  simp [borderLine, run_cons, run, exec, exec.extend, exec.finish, hr]

theorem Runs.if {wd : Widths} {a : List Op} {f : GState → GState} {k : GState → List Mark} (c : Prop) [Decidable c]
    (h : Runs wd a f k) : Runs wd (if c then a else []) (fun g => if c then f g else g) (fun g => if c then k g else []) := by
  by_cases hc : c
  · simpa [hc] using h
  · simpa [hc] using Runs.nil

theorem Runs.congr {wd : Widths} {a : List Op} {f f' : GState → GState} {k k' : GState → List Mark} (h : Runs wd a f k)
    (hf : ∀ g, f g = f' g) (hk : ∀ g, k g = k' g) : Runs wd a f' k' := by
  intro r hr
  rw [h r hr, hf, hk]

/-- Marks that are no glyphs. -/
def NoGlyph (l : List Mark) : Prop := ∀ c p g, Mark.glyph c p g ∉ l

/-- Borders: shapes only. -/
theorem runs_borders (wd : Widths) (t : TextItem) :
    ∃ k, Runs wd (borderOps t) (fun g => g) k ∧ ∀ g, NoGlyph (k g) := by
  have h := (((Runs.if (has t.opt.border top) (Runs.border wd (t.x - t.lineWidth / 2) (t.pageHeight - t.y)
      (t.x + t.cellWidth + t.lineWidth / 2) (t.pageHeight - t.y))).append
    (Runs.if (has t.opt.border left) (Runs.border wd t.x (t.pageHeight - t.y) t.x (t.pageHeight - t.y - t.cellHeight)))).append
    (Runs.if (has t.opt.border right) (Runs.border wd (t.x + t.cellWidth) (t.pageHeight - t.y) (t.x + t.cellWidth)
      (t.pageHeight - t.y - t.cellHeight)))).append
    (Runs.if (has t.opt.border bottom) (Runs.border wd (t.x - t.lineWidth / 2) (t.pageHeight - t.y - t.cellHeight)
      (t.x + t.cellWidth + t.lineWidth / 2) (t.pageHeight - t.y - t.cellHeight)))
  refine ⟨_, Runs.congr h (f' := fun g => g) (fun g => ?_) (fun g => rfl), fun g c p s hm => ?_⟩
  · simp
  · simp only [List.mem_append] at hm
    rcases hm with ((hm | hm) | hm) | hm <;> split at hm <;> simp at hm

theorem runs_underline (wd : Widths) (e : Env) (t : TextItem) :
    ∃ k, Runs wd (if has t.fontStyle underline then underlineOps e t else []) (fun g => g) k ∧ ∀ g, NoGlyph (k g) := by
  by_cases hc : has t.fontStyle underline
  · have : ∀ x y w h : ℚ, Runs wd [.re x y w h, .paint false .fill] (fun g => g) (fun g => [.shape .fill [.rect x y w h] g]) := by
      intro x y w h r hr
      simp [run_cons, run, exec, exec.finish, hr]
    simp only [hc, if_true, underlineOps]
    exact ⟨_, this _ _ _ _, fun g c p s hm => by simp at hm⟩
  · exact ⟨fun _ => [], by simpa [hc] using Runs.nil, fun g c p s hm => by simp at hm⟩

/-- The parameters a text object sets. -/
def baseState (t : TextItem) (g : GState) : GState :=
  { g with font := some (t.font, t.fontSize), charSpace := t.charSpacing,
           fill := (if t.inColour then (t.colour.map (·.colour)).getD g.fill else g.fill) }

/-- The graphics state in which a text item's glyphs are shown. -/
def textState (t : TextItem) (g : GState) : GState :=
  { g with ext := g.ext ++ t.opt.ext, font := some (t.font, t.fontSize), charSpace := t.charSpacing,
           fill := (if t.inColour then (t.colour.map (·.colour)).getD g.fill else g.fill) }

/-- The graphics state after a text item. -/
def textAfter (t : TextItem) (g : GState) : GState := if t.opt.ext = [] then textState t g else g

/-- A text item: its glyphs, then shapes. -/
theorem runs_text (wd : Widths) (e : Env) (t : TextItem) : ∃ k : GState → List Mark,
    Runs wd (textOps e t) (textAfter t)
      (fun g => (show' wd (textState t g) t.font t.fontSize (calX t, calY e t) (tjOf e t)).2 ++ k g) ∧
    ∀ g, NoGlyph (k g) := by
  obtain ⟨k1, h1, n1⟩ := runs_underline wd e t
  obtain ⟨k2, h2, n2⟩ := runs_borders wd t
  have hobj : Runs wd ([.BT, .Td (calX t) (calY e t), .Tf t.font t.fontSize, .Tc t.charSpacing] ++
      colourOps t ++
      [.TJ (tjOf e t), .ET]) (fun g => baseState t g)
      (fun g => (show' wd (baseState t g) t.font t.fontSize
             (calX t, calY e t) (tjOf e t)).2) := by
    intro r hr
    have h := run_textObject wd r hr (calX t) (calY e t) t.font t.fontSize t.charSpacing
      (if t.inColour then t.colour.map (·.colour) else none) (tjOf e t)
    unfold baseState colourOps
    cases hb : t.inColour
    · simp only [hb, Bool.false_eq_true, if_false, Option.map_none, Option.toList_none, zero_add, Option.getD_none] at h ⊢
      exact h
    · cases hcol : t.colour with
      | none =>
        simp only [hb, hcol, if_true, Option.map_none, Option.toList_none, zero_add, Option.getD_none] at h ⊢
        exact h
      | some c =>
        simp only [hb, hcol, if_true, Option.map_some, Option.toList_some, zero_add, Option.getD_some] at h ⊢
        exact h
  have hin := (hobj.append h1).append h2
  refine ⟨fun g => k1 (textState t g) ++ k2 (textState t g), ?_, fun g c p s hm => ?_⟩
  · by_cases hx : t.opt.ext = []
    · have : textOps e t = ([.BT, .Td (calX t) (calY e t), .Tf t.font t.fontSize, .Tc t.charSpacing] ++
          colourOps t ++
          [.TJ (tjOf e t), .ET]) ++ (if has t.fontStyle underline then underlineOps e t else []) ++ borderOps t := by
        simp [textOps, hx]
      rw [this]
      refine Runs.congr hin (fun g => ?_) (fun g => ?_)
      · simp [textAfter, textState, baseState, hx]
      · simp [textState, baseState, hx]
    · have hw := ((Runs.gs wd t.opt.ext).append hin).wrap
      have : textOps e t = [.q] ++ (t.opt.ext.map Op.gs ++ (([.BT, .Td (calX t) (calY e t), .Tf t.font t.fontSize, .Tc t.charSpacing] ++
          colourOps t ++
          [.TJ (tjOf e t), .ET]) ++ (if has t.fontStyle underline then underlineOps e t else []) ++ borderOps t)) ++ [.Q] := by
        simp [textOps, hx]
      rw [this]
      refine Runs.congr hw (fun g => ?_) (fun g => ?_)
      · simp [textAfter, hx]
      · simp [textState, baseState]
  · rw [List.mem_append] at hm; rcases hm with hm | hm
    · exact n1 _ _ _ _ hm
    · exact n2 _ _ _ _ hm

end Verif.Content
