import Verif.Lemmas.TableDraw
/- C42: tables. -/
namespace Verif.Props
open Table Content TableSpec
open Units (toPoints fromPoints)

/-- **C42** The cells of a table: the header row, one row per row of data in order, and blank rows up to the maximum; row `k` is
`k` row heights below the top and column `j` is to the right of the columns before it; header texts are centred, the others
aligned as their column; a cell has its own style or the table's. -/
theorem table_cells (t : Table) (h : ∀ row ∈ t.rows, row.length ≤ t.columns.length) :
    cells t = some (headerCells t ++ dataCells t ++ blankCells t) := by
  unfold cells
  rw [dataRows_eq, if_pos h, Option.map_some, plainRow_eq, blankRows_eq]
  congr 3
  · refine List.map_congr_left fun j _ => ?_
    simp [placed, column, offset, sums]
  · unfold dataCells
    congr 2
    funext k row
    congr 1
    funext j c
    unfold placed
    push_cast
    congr 1
    ring
  · funext b
    refine List.map_congr_left fun j _ => ?_
    unfold placed
    push_cast
    congr 1
    ring

/-- **C42** A table with a row that has more cells than there are columns is not drawn: the call panics. -/
theorem table_long_row (t : Table) : cells t = none ↔ ∃ row ∈ t.rows, t.columns.length < row.length := by
  unfold cells
  rw [dataRows_eq]
  by_cases h : ∀ row ∈ t.rows, row.length ≤ t.columns.length
  · rw [if_pos h]
    simp only [Option.map_some, reduceCtorEq, false_iff, not_exists, not_and, not_lt]
    exact h
  · rw [if_neg h]
    simp only [Option.map_none, true_iff]
    push Not at h
    exact h

private theorem range_at {n i a : Nat} (h : (List.range n)[i]? = some a) : a = i := by
  obtain ⟨_, h⟩ := List.getElem?_eq_some_iff.1 h
  simpa using h.symm

private theorem row_of (t : Table) (p : ℚ × ℚ) (hw : ∀ c ∈ t.columns, 0 < c.width) (k : Nat) (cells : List Cell)
    (hl : cells.length = t.columns.length)
    (hc : ∀ (j : Nat) (c : Cell), cells[j]? = some c → c.x = t.startX + offset t j ∧ c.y = t.startY + k * t.rowHeight ∧
      c.height = t.rowHeight ∧ c.width = (column t j).width) :
    cells.countP (fun c => decide (covers p c)) = if (t.startX ≤ p.1 ∧ p.1 < t.startX + totalWidth t) ∧
      t.startY + k * t.rowHeight ≤ p.2 ∧ p.2 < t.startY + k * t.rowHeight + t.rowHeight then 1 else 0 := by
  rw [row_count p (t.startY + k * t.rowHeight) t.rowHeight t.columns t.startX cells hw hl]
  · simp only [and_assoc]; rfl
  · intro j c hj
    obtain ⟨h1, h2, h3, h4⟩ := hc j c hj
    refine ⟨h1, h2, h3, ?_⟩
    have hlt : j < t.columns.length := by
      rw [← hl]; exact (List.getElem?_eq_some_iff.1 hj).1
    rw [h4, column, List.getD_eq_getElem?_getD, List.getElem?_eq_getElem hlt]
    rfl

/-- **C42** The cells tile the table: every point of the table's area - the header and as many rows as there are rows of data,
or the maximum if that is more - is in exactly one cell, and no cell reaches outside (columns and rows that have a positive size,
rows as long as the list of columns). -/
theorem table_tiles (t : Table) (hw : ∀ c ∈ t.columns, 0 < c.width) (hh : 0 < t.rowHeight)
    (hrow : ∀ row ∈ t.rows, row.length = t.columns.length) (p : ℚ × ℚ) :
    ∃ cs, cells t = some cs ∧
      ((inTable t (max t.rows.length t.maxRows.toNat) p → cs.countP (fun c => decide (covers p c)) = 1) ∧
       (¬ inTable t (max t.rows.length t.maxRows.toNat) p → cs.countP (fun c => decide (covers p c)) = 0)) := by
  refine ⟨_, table_cells t fun row hr => (hrow row hr).le, ?_⟩
  let rows : List (List Cell) := [headerCells t] ++
    (t.rows.mapIdx fun k row => row.mapIdx fun j c => placed t (k + 1) j c.content (column t j).align false (c.style.getD t.cellStyle)) ++
    (List.range (t.maxRows - t.rows.length).toNat).map fun b =>
      (List.range t.columns.length).map fun j => placed t (t.rows.length + 1 + b) j [] (column t j).align false t.cellStyle
  have hfl : headerCells t ++ dataCells t ++ blankCells t = rows.flatten := by
    simp only [rows, List.flatten_append, List.flatten_cons, List.flatten_nil, List.append_nil, dataCells, blankCells, List.flatMap_def]
  have hlen : rows.length = max t.rows.length t.maxRows.toNat + 1 := by
    simp only [rows, List.length_append, List.length_cons, List.length_nil, List.length_mapIdx, List.length_map, List.length_range]
    omega
  have hcount := rows_count p (t.startX ≤ p.1 ∧ p.1 < t.startX + totalWidth t) t.rowHeight hh rows t.startY ?_
  · rw [hfl, hcount, hlen]
    unfold inTable
    push_cast
    constructor
    · intro h; rw [if_pos ⟨⟨h.1, h.2.1⟩, h.2.2⟩]
    · intro h; rw [if_neg fun g => h ⟨g.1.1, g.1.2, g.2⟩]
  · intro k r hk
    simp only [rows, List.append_assoc, List.getElem?_append] at hk
    split at hk
    next h0 =>
      obtain rfl : k = 0 := by simpa using h0
      obtain rfl : headerCells t = r := by simpa using hk
      refine row_of t p hw 0 _ (by simp [headerCells]) ?_
      intro j c hj
      simp only [headerCells, List.getElem?_map, Option.map_eq_some_iff] at hj
      obtain ⟨i, hi, rfl⟩ := hj
      obtain rfl := range_at hi
      exact ⟨rfl, rfl, rfl, rfl⟩
    next h0 =>
      split at hk
      next h1 =>
        simp only [List.length_cons, List.length_nil] at h0 h1 hk
        simp only [List.getElem?_mapIdx, Option.map_eq_some_iff] at hk
        obtain ⟨row, hrow', rfl⟩ := hk
        have hk1 : k - (0 + 1) + 1 = k := by omega
        refine row_of t p hw k _ (by simp [hrow row (List.mem_of_getElem? hrow')]) ?_
        intro j c hj
        simp only [List.getElem?_mapIdx, Option.map_eq_some_iff] at hj
        obtain ⟨a, ha, rfl⟩ := hj
        refine ⟨rfl, ?_, rfl, rfl⟩
        show t.startY + ((k - (0 + 1) + 1 : Nat) : ℚ) * t.rowHeight = _
        rw [hk1]
      next h1 =>
        simp only [List.length_cons, List.length_nil, List.length_mapIdx] at h0 h1 hk
        simp only [List.getElem?_map, Option.map_eq_some_iff] at hk
        obtain ⟨b, hb, rfl⟩ := hk
        obtain rfl := range_at hb
        refine row_of t p hw k _ (by simp) ?_
        intro j c hj
        simp only [List.getElem?_map, Option.map_eq_some_iff] at hj
        obtain ⟨i, hi, rfl⟩ := hj
        obtain rfl := range_at hi
        refine ⟨rfl, ?_, rfl, rfl⟩
        show t.startY + ((t.rows.length + 1 + (k - (0 + 1) - t.rows.length) : Nat) : ℚ) * t.rowHeight = _
        congr 3
        omega

/-- **C42** What DrawTable puts on the page, in every document: the cells in order, each with its background, its border and its
text inside the padding, then the border of the whole table - around its area if there are not more rows than the maximum - and
the border of the header row.  Nothing else changes on any page. -/
theorem table_draws (e : Env) (height ml mt : ℚ) (calls : List Call) (s s' : St) (t : Table)
    (h : steps e (start height ml mt) calls = some s) (hd : DrawTable e t s s') :
    ∃ cs items, cells t = some cs ∧ CellsDrawn e t.padding s.cur cs items ∧
      s'.pages = s.pages.set s.page (s.pages.getD s.page [] ++ (items ++
        sides e s.cur.pageHeight s.cur.ext t.startX t.startY (t.startX + totalWidth t) (t.startY + (t.maxRows + 1) * t.rowHeight)
          t.tableStyle.border ++
        sides e s.cur.pageHeight s.cur.ext t.startX t.startY (t.startX + totalWidth t) (t.startY + t.rowHeight)
          t.headerStyle.border)) ∧ s'.page = s.page := by
  obtain ⟨cs, s1, h1, h2, h3⟩ := hd
  have hr : Reach e s := ⟨height, ml, mt, calls, h⟩
  obtain ⟨items, a1, a2, a3, a4, a5, a6⟩ := cells_drawn_all cs hr h2
  have g := shapes_steps (outlineCalls t) (Reach.inside a6) (items := _) (by
    unfold outlineCalls
    rw [List.map_append, border_shapes, border_shapes, ← List.map_append]) h3
  refine ⟨cs, items, h1, a1, ?_, g.page.trans a3⟩
  rw [g.pages, a3, a2, set_set_append (Reach.inside hr), rightEdge_eq, a4, a5, List.append_assoc]
  push_cast
  rfl

/-- **C42** (counterexample)  With more rows than the maximum the border of the table does not go around it: two rows, a maximum
of one - the table is 30 high, its border 20. -/
theorem table_border_fails : ∃ (t : Table) (cs : List Cell) (c : Cell), cells t = some cs ∧ c ∈ cs ∧
    c.y + c.height > t.startY + (t.maxRows + 1) * t.rowHeight := by
  refine ⟨{ startX := 0, startY := 0, rowHeight := 10, columns := [⟨[65], 50, .left⟩], rows := [[⟨[65], none⟩], [⟨[66], none⟩]], maxRows := 1 },
    _, ⟨0, 20, 50, 10, [66], .left, false, {}⟩, rfl, by decide +kernel, by decide +kernel⟩

/-- **C42** (counterexample)  A black background cannot be had: it stands for none. -/
theorem table_black_fails (e : Env) (ph : ℚ) (ext : Option Nat) (c : Cell) (h : c.style.fill = ⟨0, 0, 0⟩) :
    background e ph ext c = [] := by
  unfold background; rw [if_pos h]

/-! ### A concrete case -/

/-- Two columns, one row of data with a style of its own, one blank row. -/
def demoTable : Table :=
  { startX := 20, startY := 30, rowHeight := 20, maxRows := 2
    columns := [⟨[65], 50, .left⟩, ⟨[66, 65], 60, .right⟩]
    rows := [[⟨[65, 32, 66], none⟩, ⟨[66], some { fill := ⟨255, 0, 0⟩, font := some 0, size := 10 }⟩]]
    tableStyle := { border := ⟨true, true, true, true, 1, ⟨0, 0, 0⟩⟩ }
    cellStyle := { border := ⟨true, false, false, true, 1, ⟨9, 9, 9⟩⟩ } }

/-- The hypotheses of `table_tiles` are met, with six cells. -/
example : (∀ c ∈ demoTable.columns, 0 < c.width) ∧ 0 < demoTable.rowHeight ∧
    (∀ row ∈ demoTable.rows, row.length = demoTable.columns.length) ∧ (cells demoTable).map (·.length) = some 6 := by
  refine ⟨?_, ?_, ?_, ?_⟩ <;> decide +kernel

/-- A cell, the splitting limited to `n` steps (for concrete cases only). -/
private def runCell (e : Env) (t : Table) (n : Nat) (c : Cell) (s : St) : Option St :=
  (steps e s (Table.cellCalls t c)).bind fun s1 =>
    if c.content = [] then some s1
    else (measureCellHeight e s1.cur c.content).bind fun lh =>
      match Split.run (splitCfg e s1.cur (c.width - 2 * t.padding) { mode := .indicator, indicator := 32 }) c.content n (.running {}) with
      | .finished lines => steps e s1 (optionCalls (c.width - 2 * t.padding) (startHeight (c.height - 2 * t.padding) lh lines.length) lh
          (fromPoints e.cfg s1.cur.x) { align := alignBits c.align, ext := [] ++ transOf s1 none } none lines)
      | _ => none

private theorem runCell_draws {e : Env} {t : Table} {n : Nat} {c : Cell} {s s' : St} (h : runCell e t n c s = some s') :
    DrawCell e t c s s' := by
  unfold runCell at h
  obtain ⟨s1, h1, h⟩ := Option.bind_eq_some_iff.1 h
  refine ⟨s1, h1, ?_⟩
  unfold CellText
  by_cases hc : c.content = []
  · rw [if_pos hc] at h ⊢; exact (Option.some.inj h).symm
  · rw [if_neg hc] at h ⊢
    obtain ⟨lh, h2, h⟩ := Option.bind_eq_some_iff.1 h
    split at h
    next lines hr => exact ⟨lh, lines, h2, ⟨hc, n, hr⟩, h⟩
    · exact absurd h (by simp)

private def runCells (e : Env) (t : Table) (n : Nat) : List Cell → St → Option St
  | [], s => some s
  | c :: rest, s => (runCell e t n c s).bind (runCells e t n rest)

private theorem runCells_draws {e : Env} {t : Table} {n : Nat} : ∀ (cs : List Cell) {s s' : St}, runCells e t n cs s = some s' →
    DrawCells e t cs s s' := by
  intro cs
  induction cs with
  | nil => intro s s' h; exact (Option.some.inj h).symm
  | cons c cs ih =>
    intro s s' h
    obtain ⟨s1, h1, h2⟩ := Option.bind_eq_some_iff.1 h
    exact ⟨s1, runCell_draws h1, ih h2⟩

/-- The table is drawn: 24 items on the page, of which four are texts. -/
example : ∃ s s', steps tallEnv (start 842 10 10) [.setFont 0 0 10] = some s ∧ DrawTable tallEnv demoTable s s' ∧
    (s'.pages.getD 0 []).length = 24 ∧
    (s'.pages.getD 0 []).filterMap (fun | .text t => some (t.text, t.x, t.y) | _ => none) =
      [([65], 22, 32), ([66, 65], 72, 32), ([65, 32, 66], 22, 52), ([66], 72, 52)] := by
  have h : ((steps tallEnv (start 842 10 10) [.setFont 0 0 10]).bind fun s => (cells demoTable).bind fun cs =>
      (runCells tallEnv demoTable 20 cs s).bind fun s1 => (steps tallEnv s1 (outlineCalls demoTable)).map fun s' =>
        ((s'.pages.getD 0 []).length, (s'.pages.getD 0 []).filterMap (fun | .text t => some (t.text, t.x, t.y) | _ => none))) =
      some (24, [([65], 22, 32), ([66, 65], 72, 32), ([65, 32, 66], 22, 52), ([66], 72, 52)]) := by decide +kernel
  obtain ⟨s, h1, h⟩ := Option.bind_eq_some_iff.1 h
  obtain ⟨cs, h2, h⟩ := Option.bind_eq_some_iff.1 h
  obtain ⟨s1, h3, h⟩ := Option.bind_eq_some_iff.1 h
  obtain ⟨s', h4, h⟩ := Option.map_eq_some_iff.1 h
  simp only [Prod.mk.injEq] at h
  exact ⟨s, s', h1, ⟨cs, s1, h2, runCells_draws cs h3, h4⟩, h.1, h.2⟩

end Verif.Props
