import Verif.Lemmas.Table
/- Tables: what is put on the page. -/
namespace Verif.TableSpec
open Table Content Props
open Units (toPoints fromPoints)

/-- The parts of the state that the drawing of a cell depends on. -/
structure Same (a b : Cur) : Prop where
  font : SameFont a b
  height : a.pageHeight = b.pageHeight
  ext : a.ext = b.ext

theorem Same.refl (a : Cur) : Same a a := ⟨⟨rfl, rfl, rfl⟩, rfl, rfl⟩
theorem Same.trans {a b c : Cur} (h : Same a b) (g : Same b c) : Same a c :=
  ⟨⟨h.font.1.trans g.font.1, h.font.2.1.trans g.font.2.1, h.font.2.2.trans g.font.2.2⟩, h.height.trans g.height, h.ext.trans g.ext⟩

/-- `s'` is `s` with these items added to the current page. -/
structure Adds (s s' : St) (items : List Item) : Prop where
  pages : s'.pages = s.pages.set s.page (s.pages.getD s.page [] ++ items)
  page : s'.page = s.page
  cur : Same s'.cur s.cur

theorem add_pages {s : St} (hp : s.page < s.pages.length) (i : Item) :
    (s.add i).pages = s.pages.set s.page (s.pages.getD s.page [] ++ [i]) := by
  show s.pages.modify s.page (· ++ [i]) = _
  rw [List.modify_eq_set_getElem?]
  simp [List.getD_eq_getElem?_getD, List.getElem?_eq_getElem hp]

theorem Adds.nil {s : St} (hp : s.page < s.pages.length) : Adds s s [] := by
  refine ⟨?_, rfl, Same.refl _⟩
  have : s.pages.getD s.page [] = s.pages[s.page] := by simp [List.getD_eq_getElem?_getD, hp]
  rw [this]; simp

theorem Adds.append {s s1 s2 : St} {a b : List Item} (hp : s.page < s.pages.length) (h : Adds s s1 a) (g : Adds s1 s2 b) :
    Adds s s2 (a ++ b) := by
  refine ⟨?_, g.page.trans h.page, g.cur.trans h.cur⟩
  rw [g.pages, h.page, h.pages, set_set_append hp]

theorem Adds.inside {s s1 : St} {a : List Item} (hp : s.page < s.pages.length) (h : Adds s s1 a) : s1.page < s1.pages.length := by
  rw [h.page, h.pages]; simpa using hp

/-- The calls a table makes for shapes, and what each puts on the page. -/
def shape (e : Env) (ph : ℚ) (ext : Option Nat) : Call → Option Item
  | .setColour st r g b => some (.rgb st r g b)
  | .setLineWidth w => some (.lineWidth (toPoints e.cfg w))
  | .line x1 y1 x2 y2 => some (.line ph (toPoints e.cfg x1) (toPoints e.cfg y1) (toPoints e.cfg x2) (toPoints e.cfg y2) ext.toList)
  | .rectUpperOpt x y w h st none => some (.rectangle ph (toPoints e.cfg x) (toPoints e.cfg y + toPoints e.cfg h) (toPoints e.cfg w)
      (toPoints e.cfg h) st ext.toList)
  | _ => none

theorem shape_step {e : Env} {s s' : St} {c : Call} {i : Item} (hp : s.page < s.pages.length)
    (hi : shape e s.cur.pageHeight s.cur.ext c = some i) (h : step e s c = some s') : Adds s s' [i] := by
  unfold shape at hi
  split at hi <;> simp only [Option.some.injEq, reduceCtorEq] at hi
  all_goals
    subst hi
    simp only [step, Option.some.injEq] at h
    subst h
    refine ⟨add_pages (s := _) hp _, rfl, ⟨⟨rfl, rfl, rfl⟩, rfl, rfl⟩⟩

theorem shapes_steps {e : Env} : ∀ (calls : List Call) {s s' : St} {items : List Item}, s.page < s.pages.length →
    calls.map (shape e s.cur.pageHeight s.cur.ext) = items.map some → steps e s calls = some s' → Adds s s' items := by
  intro calls
  induction calls with
  | nil =>
    intro s s' items hp hi h
    obtain rfl : items = [] := by cases items with
      | nil => rfl
      | cons a l => simp at hi
    obtain rfl : s = s' := by simpa [steps] using h
    exact Adds.nil hp
  | cons c calls ih =>
    intro s s' items hp hi h
    cases items with
    | nil => simp at hi
    | cons a items =>
      simp only [List.map_cons, List.cons.injEq] at hi
      obtain ⟨s1, h1, h2⟩ := Option.bind_eq_some_iff.1 h
      have g := shape_step hp hi.1 h1
      have g2 := ih (Adds.inside hp g) (by rw [g.cur.height, g.cur.ext]; exact hi.2) h2
      exact g.append hp g2

theorem border_shapes (e : Env) (ph : ℚ) (ext : Option Nat) (x1 y1 x2 y2 : ℚ) (b : Border) :
    (borderCalls x1 y1 x2 y2 b).map (shape e ph ext) = (sides e ph ext x1 y1 x2 y2 b).map some := by
  unfold borderCalls sides
  by_cases hb : b.width ≤ 0
  · simp [hb]
  · simp only [hb, if_false]
    cases b.top <;> cases b.bottom <;> cases b.left <;> cases b.right <;> rfl

theorem fill_shapes (e : Env) (ph : ℚ) (ext : Option Nat) (c : Cell) :
    (fillCalls c).map (shape e ph ext) = (background e ph ext c).map some := by
  unfold fillCalls background
  by_cases hb : c.style.fill = {} <;> simp [hb, shape]

/-- The state can be reached from a new document. -/
def Reach (e : Env) (s : St) : Prop := ∃ height ml mt calls, steps e (start height ml mt) calls = some s

theorem Reach.more {e : Env} {s s' : St} (h : Reach e s) {calls : List Call} (hs : steps e s calls = some s') : Reach e s' := by
  obtain ⟨a, b, c, d, h⟩ := h
  exact ⟨a, b, c, d ++ calls, by rw [steps_append, h]; exact hs⟩

theorem Reach.inside {e : Env} {s : St} (h : Reach e s) : s.page < s.pages.length := by
  obtain ⟨a, b, c, d, h⟩ := h
  have := after_set h (x := 0) (y := 0) rfl
  exact this.1

/-- The calls before the text. -/
theorem cell_calls {e : Env} {t : Table} {c : Cell} {s s1 : St} (hr : Reach e s) (h : steps e s (cellCalls t c) = some s1) :
    s1.pages = s.pages.set s.page (s.pages.getD s.page [] ++ (background e s.cur.pageHeight s.cur.ext c ++
      if c.header then [] else sides e s.cur.pageHeight s.cur.ext c.x c.y (c.x + c.width) (c.y + c.height) c.style.border)) ∧
      s1.page = s.page ∧ Same s1.cur (fontOf s.cur c) ∧ s1.page < s1.pages.length ∧ NoJoin s1 ∧
      s1.cur.x = toPoints e.cfg (c.x + t.padding) ∧ s1.cur.y = toPoints e.cfg (c.y + t.padding) ∧ s1.cur.inColour = true ∧
      s1.cur.colour = some (.rgb c.style.text.r c.style.text.g c.style.text.b) := by
  have hp := Reach.inside hr
  unfold Table.cellCalls at h
  rw [List.append_assoc, List.append_assoc, ← List.append_assoc, steps_append] at h
  obtain ⟨s2, h2, h⟩ := Option.bind_eq_some_iff.1 h
  have g : Adds s s2 (background e s.cur.pageHeight s.cur.ext c ++
      if c.header then [] else sides e s.cur.pageHeight s.cur.ext c.x c.y (c.x + c.width) (c.y + c.height) c.style.border) := by
    refine shapes_steps _ hp ?_ h2
    rw [List.map_append, List.map_append, fill_shapes]
    cases c.header
    · simp only [Bool.false_eq_true, if_false, border_shapes]
    · rfl
  rw [steps_append] at h
  obtain ⟨s3, h3, h⟩ := Option.bind_eq_some_iff.1 h
  obtain ⟨s4, h4, h5⟩ := Option.bind_eq_some_iff.1 (show (step e s2 (.setXY (c.x + t.padding) (c.y + t.padding))).bind
    (fun s' => steps e s' [.setTextColour (.rgb c.style.text.r c.style.text.g c.style.text.b)]) = some s3 from h3)
  obtain ⟨a1, a2, a3, a4⟩ := Reach.more hr h2
  obtain ⟨q1, q2, q3, q4, q5, q6, q7, q8, q9⟩ := after_set a4.choose_spec h4
  obtain rfl := Option.some.inj (show some { s4 with cur := { s4.cur with
    colour := some (.rgb c.style.text.r c.style.text.g c.style.text.b), inColour := true } } = some s3 from h5)
  cases hf : c.style.font with
  | none =>
    rw [hf] at h
    obtain rfl := Option.some.inj h
    refine ⟨?_, ?_, ?_, q1, q2, q5, q6, rfl, rfl⟩
    · rw [← g.pages]; exact q4
    · rw [← g.page]; exact q3
    · have : fontOf s.cur c = s.cur := by simp [fontOf, hf]
      rw [this]
      have := (⟨q7, q8, q9⟩ : Same s4.cur s2.cur).trans g.cur
      exact ⟨this.font, this.height, this.ext⟩
  | some f =>
    rw [hf] at h
    obtain rfl := Option.some.inj h
    refine ⟨?_, ?_, ?_, q1, q2, q5, q6, rfl, rfl⟩
    · rw [← g.pages]; exact q4
    · rw [← g.page]; exact q3
    · have : fontOf s.cur c = { s.cur with font := f, fontSize := c.style.size } := by simp [fontOf, hf]
      rw [this]
      exact ⟨⟨rfl, rfl, q7.2.2.trans g.cur.font.2.2⟩, q8.trans g.cur.height, q9.trans g.cur.ext⟩

theorem fontOf_same {a b : Cur} (h : Same a b) (c : Cell) : Same (fontOf a c) (fontOf b c) := by
  unfold fontOf
  cases c.style.font with
  | none => exact h
  | some f => exact ⟨⟨rfl, rfl, h.font.2.2⟩, h.height, h.ext⟩

theorem cell_drawn {e : Env} {t : Table} {c : Cell} {s s' : St} (hr : Reach e s) (h : DrawCell e t c s s') :
    ∃ items, CellDrawn e t.padding s.cur c items ∧ s'.pages = s.pages.set s.page (s.pages.getD s.page [] ++ items) ∧
      s'.page = s.page ∧ Same s'.cur (fontOf s.cur c) ∧ Reach e s' := by
  obtain ⟨s1, h1, h2⟩ := h
  have hp := Reach.inside hr
  obtain ⟨q1, q2, q3, q4, q5, q6, q7, q8, q9⟩ := cell_calls hr h1
  unfold CellText at h2
  by_cases hc : c.content = []
  · rw [if_pos hc] at h2
    subst h2
    refine ⟨_, ⟨[], by simp [TextDrawn, hc], rfl⟩, ?_, q2, q3, Reach.more hr h1⟩
    rw [q1]; simp
  · rw [if_neg hc] at h2
    obtain ⟨lh, lines, hlh, hret, hst⟩ := h2
    obtain ⟨items, g1, g2, g3, g4, g5, g6, g7, g8, g9⟩ := options_drawn (opt := { align := alignBits c.align, ext := [] ++ transOf s1 none }) (by show has 0 bottom = false; decide) lines s1 s' q4 q5
      (x := c.x + t.padding) q6 (by rw [q6, (units_round_trip e.cfg _).1] at hst; exact hst)
    refine ⟨_, ⟨items, ?_, rfl⟩, ?_, g2.trans q2, (⟨g5, g8, g9⟩ : Same s'.cur s1.cur).trans q3, (Reach.more hr h1).more hst⟩
    · rw [TextDrawn, if_neg hc]
      refine ⟨lh, by rw [← q3.font.height]; exact hlh, ?_, ?_⟩
      · have : splitCfg e s1.cur (c.width - 2 * t.padding) { mode := .indicator, indicator := 32 } =
            splitCfg e (fontOf s.cur c) (c.width - 2 * t.padding) { mode := .indicator, indicator := 32 } := by
          unfold splitCfg; simp only [q3.font.measure]
        rw [← this, g3]; exact hret
      · intro k u hk
        have q := g4 k u hk
        have hb : (fontOf s.cur c).charSpacing = s.cur.charSpacing ∧ (fontOf s.cur c).pageHeight = s.cur.pageHeight := by
          unfold fontOf; cases c.style.font <;> exact ⟨rfl, rfl⟩
        have hl : items.length = lines.length := by rw [← g3]; simp
        refine ⟨q.isCell, q.x, by rw [q.y, q7, toPoints_mul], by rw [q.font, q3.font.1], by rw [q.size, q3.font.2.1],
          by rw [q.spacing, q3.font.2.2, hb.1], by rw [q.height, q3.height, hb.2], by rw [q.rect, hl, startHeight_box], ?_, by rw [q.opt], ?_, ?_⟩
        · rw [q.opt]
          show lineAlign (alignBits c.align) _ = _
          unfold lineAlign
          cases c.align <;> simp [alignBits, bitsOf, has, Content.justify]
        · have := q.colour; simp only [Prod.mk.injEq] at this; rw [this.2, q8]
        · have := q.colour; simp only [Prod.mk.injEq] at this; rw [this.1, q9]
    · rw [g1, q2, q1, set_set_append hp]

theorem CellDrawn.same {e : Env} {pad : ℚ} {a b : Cur} (h : Same a b) {c : Cell} {items : List Item} (hd : CellDrawn e pad a c items) :
    CellDrawn e pad b c items := by
  obtain ⟨texts, h1, h2⟩ := hd
  have hf := fontOf_same h c
  refine ⟨texts, ?_, by rw [h2, h.height, h.ext]⟩
  unfold TextDrawn at h1 ⊢
  by_cases hc : c.content = []
  · rw [if_pos hc] at h1 ⊢; exact h1
  · rw [if_neg hc] at h1 ⊢
    obtain ⟨lh, a1, a2, a3⟩ := h1
    refine ⟨lh, by rw [← hf.font.height]; exact a1, ?_, ?_⟩
    · have : splitCfg e (fontOf a c) (c.width - 2 * pad) { mode := .indicator, indicator := 32 } =
          splitCfg e (fontOf b c) (c.width - 2 * pad) { mode := .indicator, indicator := 32 } := by
        unfold splitCfg; simp only [hf.font.measure]
      rw [← this]; exact a2
    · rw [← hf.font.1, ← hf.font.2.1, ← h.font.2.2, ← h.height]; exact a3

theorem CellsDrawn.same {e : Env} {pad : ℚ} : ∀ {cs : List Cell} {a b : Cur} {items : List Item}, Same a b →
    CellsDrawn e pad a cs items → CellsDrawn e pad b cs items := by
  intro cs
  induction cs with
  | nil => intro a b items _ h; exact h
  | cons c cs ih =>
    intro a b items h hd
    obtain ⟨i, j, hi, h1, h2⟩ := hd
    exact ⟨i, j, hi, CellDrawn.same h h1, ih (fontOf_same h c) h2⟩

theorem cells_drawn_all {e : Env} {t : Table} : ∀ (cs : List Cell) {s s' : St}, Reach e s → DrawCells e t cs s s' →
    ∃ items, CellsDrawn e t.padding s.cur cs items ∧ s'.pages = s.pages.set s.page (s.pages.getD s.page [] ++ items) ∧
      s'.page = s.page ∧ s'.cur.pageHeight = s.cur.pageHeight ∧ s'.cur.ext = s.cur.ext ∧ Reach e s' := by
  intro cs
  induction cs with
  | nil =>
    intro s s' hr h
    obtain rfl : s' = s := h
    have := Adds.nil (Reach.inside hr)
    exact ⟨[], rfl, this.pages, rfl, rfl, rfl, hr⟩
  | cons c cs ih =>
    intro s s' hr h
    obtain ⟨s1, h1, h2⟩ := h
    obtain ⟨a, a1, a2, a3, a4, a5⟩ := cell_drawn hr h1
    obtain ⟨b, b1, b2, b3, b4, b5, b6⟩ := ih a5 h2
    have hb : (fontOf s.cur c).ext = s.cur.ext ∧ (fontOf s.cur c).pageHeight = s.cur.pageHeight := by
      unfold fontOf; cases c.style.font <;> exact ⟨rfl, rfl⟩
    refine ⟨a ++ b, ⟨a, b, rfl, a1, CellsDrawn.same a4 b1⟩, ?_, b3.trans a3, b4.trans (a4.height.trans hb.2), b5.trans (a4.ext.trans hb.1), b6⟩
    rw [b2, a3, a2, set_set_append (Reach.inside hr)]

end Verif.TableSpec
