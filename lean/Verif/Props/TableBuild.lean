import Verif.Spec.TableBuild
import Verif.Props.Table
import Mathlib.Data.List.Induction
/- C83: tables are drawn as they were built. -/
set_option maxRecDepth 10000
namespace Verif.Props
open TableBuild
open Table (RowCell CellStyle)

private theorem steps_snoc (a : List Op) (o : Op) : ∀ (s : TableBuild.St), TableBuild.steps s (a ++ [o]) = (TableBuild.steps s a).bind fun s' => TableBuild.step s' o := by
  induction a with
  | nil =>
    intro s
    simp only [List.nil_append, TableBuild.steps, Option.bind_some]
    cases TableBuild.step s o <;> rfl
  | cons x a ih =>
    intro s
    simp only [List.cons_append, TableBuild.steps]
    cases TableBuild.step s x with
    | none => rfl
    | some s' => exact ih s'

/-- What is known about a layout after the history. -/
private structure Built (h : List Op) (k : Nat) (c : ℚ × ℚ × ℚ × Int) (l : Layout) : Prop where
  place : (l.startX, l.startY, l.rowHeight, l.maxRows) = c
  padding : l.padding = 2
  columns : (l.columns.map fun c => (⟨c.header, c.width, TableBuild.alignOf c.align⟩ : Table.Column)) = columnsOf k h
  rows : ∀ f : Nat → List RowCell, (l.rows.map fun
      | .own cells => cells
      | .shared k => f k) = h.filterMap fun
    | .addRow t row => if t = k then some (row.map fun c => ⟨c, none⟩) else none
    | .addStyledRow t j => if t = k then some (f j) else none
    | _ => none
  table : l.tableStyle = tableStyle k h
  header : l.headerStyle = headerStyle k h
  cell : l.cellStyle = cellStyle k h

/-- The table a call is about. -/
private def target : Op → Option Nat
  | .addColumn t _ _ _ | .addRow t _ | .addStyledRow t _ | .setTableStyle t _ | .setHeaderStyle t _ | .setCellStyle t _ => some t
  | _ => none

private def rowsBy (f : Nat → List RowCell) (k : Nat) (h : List Op) : List (List RowCell) := h.filterMap fun
  | .addRow t row => if t = k then some (row.map fun c => (⟨c, none⟩ : RowCell)) else none
  | .addStyledRow t j => if t = k then some (f j) else none
  | _ => none

private theorem keep_columns {k : Nat} {h : List Op} {o : Op} (ho : target o ≠ some k) : columnsOf k (h ++ [o]) = columnsOf k h := by
  cases o <;> simp_all [columnsOf, target]
private theorem keep_rows {k : Nat} {h : List Op} {o : Op} (ho : target o ≠ some k) (f : Nat → List RowCell) : rowsBy f k (h ++ [o]) = rowsBy f k h := by
  cases o <;> simp_all [rowsBy, target]
private theorem keep_table {k : Nat} {h : List Op} {o : Op} (ho : target o ≠ some k) : tableStyles k (h ++ [o]) = tableStyles k h := by
  cases o <;> simp_all [tableStyles, target]
private theorem keep_header {k : Nat} {h : List Op} {o : Op} (ho : target o ≠ some k) : headerStyles k (h ++ [o]) = headerStyles k h := by
  cases o <;> simp_all [headerStyles, target]
private theorem keep_cell {k : Nat} {h : List Op} {o : Op} (ho : target o ≠ some k) : cellStyles k (h ++ [o]) = cellStyles k h := by
  cases o <;> simp_all [cellStyles, target]

private theorem Built.keep {k : Nat} {h : List Op} {o : Op} {c : ℚ × ℚ × ℚ × Int} {l : Layout} (ho : target o ≠ some k) (B : Built h k c l) :
    Built (h ++ [o]) k c l :=
  ⟨B.place, B.padding, by rw [keep_columns ho]; exact B.columns, fun f => (B.rows f).trans (keep_rows ho f).symm,
    by rw [tableStyle, keep_table ho]; exact B.table, by rw [headerStyle, keep_header ho]; exact B.header,
    by rw [cellStyle, keep_cell ho]; exact B.cell⟩

private structure Inv (h : List Op) (s : TableBuild.St) : Prop where
  count : s.tables.length = (made h).length
  tables : ∀ (k : Nat) (c : ℚ × ℚ × ℚ × Int) (l : Layout), (made h)[k]? = some c → s.tables[k]? = some l → Built h k c l
  slices : s.slices.length = (slicesOf h).length
  slice : ∀ j, s.slices.getD j [] = sliceOf j h
  /-- no call names a table that has not been made -/
  fresh : ∀ k, (made h).length ≤ k → ∀ o ∈ h, target o ≠ some k
  unset : ∀ j, (slicesOf h).length ≤ j → ∀ i, assigned j i h = []

private theorem fresh_lists {k : Nat} {h : List Op} (hf : ∀ o ∈ h, target o ≠ some k) :
    columnsOf k h = [] ∧ tableStyles k h = [] ∧ headerStyles k h = [] ∧ cellStyles k h = [] ∧ ∀ f, rowsBy f k h = [] := by
  induction h using List.reverseRecOn with
  | nil => simp [columnsOf, tableStyles, headerStyles, cellStyles, rowsBy]
  | append_singleton h o ih =>
    have ho := hf o (by simp)
    obtain ⟨h1, h2, h3, h4, h5⟩ := ih fun o ho => hf o (by simp [ho])
    exact ⟨by rw [keep_columns ho, h1], by rw [keep_table ho, h2], by rw [keep_header ho, h3], by rw [keep_cell ho, h4],
      fun f => by rw [keep_rows ho, h5]⟩

/-- A call about table `t`. -/
private theorem Inv.about {h : List Op} {o : Op} {t : Nat} {f : Layout → Layout} {s s' : TableBuild.St} (I : Inv h s) (ho : target o = some t)
    (hs : s.on t f = some s') (hf : ∀ c l, Built h t c l → Built (h ++ [o]) t c (f l)) : Inv (h ++ [o]) s' := by
  unfold TableBuild.St.on at hs
  split at hs
  · next hlt =>
    obtain rfl := Option.some.inj hs
    have hm : made (h ++ [o]) = made h := by cases o <;> simp_all [made, target]
    have hsl : slicesOf (h ++ [o]) = slicesOf h := by cases o <;> simp_all [slicesOf, target]
    have ha : ∀ j i, assigned j i (h ++ [o]) = assigned j i h := by
      intro j i
      cases o <;> simp_all [assigned, target]
    refine ⟨by simp [hm, I.count], ?_, by simp [hsl, I.slices], ?_, ?_, ?_⟩
    · intro k c l hk hl
      rw [hm] at hk
      rw [List.getElem?_modify] at hl
      by_cases htk : t = k
      · subst htk
        obtain ⟨l0, hl0, rfl⟩ := Option.map_eq_some_iff.1 (by simpa using hl)
        exact hf c l0 (I.tables t c l0 hk hl0)
      · refine Built.keep (by rw [ho]; simpa using htk) (I.tables k c l hk (by simpa [htk] using hl))
    · intro j
      rw [I.slice j]
      simp only [sliceOf, hsl, ha]
    · intro k hk o' ho'
      rw [hm] at hk
      rcases List.mem_append.1 ho' with ho' | ho'
      · exact I.fresh k hk o' ho'
      · obtain rfl := List.mem_singleton.1 ho'
        rw [ho, ← I.count] at *
        intro e
        have := Option.some.inj e
        omega
    · intro j hj i
      rw [ha, I.unset j (by rw [hsl] at hj; exact hj)]
  · cases hs

private theorem align_eq (a : List Nat) : TableBuild.alignOf a = aligned a := rfl

private theorem tables_inv (h : List Op) : ∀ (s : TableBuild.St), TableBuild.steps {} h = some s → Inv h s := by
  induction h using List.reverseRecOn with
  | nil =>
    intro s hs
    simp only [TableBuild.steps, Option.some.injEq] at hs
    subst hs
    refine ⟨rfl, by simp [made], rfl, by simp [sliceOf, slicesOf], by simp [columnsOf, tableStyles, headerStyles, cellStyles], by simp [assigned]⟩
  | append_singleton h o ih =>
    intro s' hs
    rw [steps_snoc] at hs
    obtain ⟨s, hs, ho⟩ := Option.bind_eq_some_iff.1 hs
    have I := ih s hs
    cases o with
    | addColumn t header width align =>
      refine I.about rfl ho fun c l B => ⟨B.place, B.padding, ?_, fun f => (B.rows f).trans ?_, ?_, ?_, ?_⟩
      · simp only [Layout.addColumn, List.map_append, B.columns]
        simp [columnsOf, align_eq]
      · simp [List.filterMap_append]
      · exact B.table.trans (by simp [tableStyle, tableStyles])
      · exact B.header.trans (by simp [headerStyle, headerStyles])
      · exact B.cell.trans (by simp [cellStyle, cellStyles])
    | addRow t row =>
      refine I.about rfl ho fun c l B => ⟨B.place, B.padding, ?_, fun f => ?_, ?_, ?_, ?_⟩
      · exact B.columns.trans (by simp [columnsOf])
      · simp only [Layout.addRow, List.map_append, B.rows]
        simp [List.filterMap_append]
      · exact B.table.trans (by simp [tableStyle, tableStyles])
      · exact B.header.trans (by simp [headerStyle, headerStyles])
      · exact B.cell.trans (by simp [cellStyle, cellStyles])
    | addStyledRow t cells =>
      simp only [TableBuild.step] at ho
      split at ho
      · refine I.about rfl ho fun c l B => ⟨B.place, B.padding, ?_, fun f => ?_, ?_, ?_, ?_⟩
        · exact B.columns.trans (by simp [columnsOf])
        · simp only [Layout.addStyledRow, List.map_append, B.rows]
          simp [List.filterMap_append]
        · exact B.table.trans (by simp [tableStyle, tableStyles])
        · exact B.header.trans (by simp [headerStyle, headerStyles])
        · exact B.cell.trans (by simp [cellStyle, cellStyles])
      · cases ho
    | setTableStyle t st =>
      refine I.about rfl ho fun c l B => ⟨B.place, B.padding, ?_, fun f => (B.rows f).trans ?_, ?_, ?_, ?_⟩
      · exact B.columns.trans (by simp [columnsOf])
      · simp [List.filterMap_append]
      · simp [tableStyle, tableStyles, Layout.setTableStyle]
      · exact B.header.trans (by simp [headerStyle, headerStyles])
      · exact B.cell.trans (by simp [cellStyle, cellStyles])
    | setHeaderStyle t st =>
      refine I.about rfl ho fun c l B => ⟨B.place, B.padding, ?_, fun f => (B.rows f).trans ?_, ?_, ?_, ?_⟩
      · exact B.columns.trans (by simp [columnsOf])
      · simp [List.filterMap_append]
      · exact B.table.trans (by simp [tableStyle, tableStyles])
      · simp [headerStyle, headerStyles, Layout.setHeaderStyle]
      · exact B.cell.trans (by simp [cellStyle, cellStyles])
    | setCellStyle t st =>
      refine I.about rfl ho fun c l B => ⟨B.place, B.padding, ?_, fun f => (B.rows f).trans ?_, ?_, ?_, ?_⟩
      · exact B.columns.trans (by simp [columnsOf])
      · simp [List.filterMap_append]
      · exact B.table.trans (by simp [tableStyle, tableStyles])
      · exact B.header.trans (by simp [headerStyle, headerStyles])
      · simp [cellStyle, cellStyles, Layout.setCellStyle]
    | newTable x y rh n =>
      simp only [TableBuild.step, Option.some.injEq] at ho
      subst ho
      have hm : made (h ++ [.newTable x y rh n]) = made h ++ [(x, y, rh, n)] := by simp [made]
      have hsl : slicesOf (h ++ [.newTable x y rh n]) = slicesOf h := by simp [slicesOf]
      have ha : ∀ j i, assigned j i (h ++ [.newTable x y rh n]) = assigned j i h := by simp [assigned]
      refine ⟨by simp [hm, I.count], ?_, by simp [hsl, I.slices], ?_, ?_, ?_⟩
      · intro k c l hk hl
        rw [hm] at hk
        by_cases hlt : k < s.tables.length
        · rw [List.getElem?_append_left (by rw [← I.count]; exact hlt)] at hk
          rw [List.getElem?_append_left hlt] at hl
          exact Built.keep (by simp [target]) (I.tables k c l hk hl)
        · have hk' : k = s.tables.length := by
            have := (List.getElem?_eq_some_iff.1 hl).1
            simp at this
            omega
          subst hk'
          have hfr : ∀ o ∈ h ++ [Op.newTable x y rh n], target o ≠ some s.tables.length := by
            intro o ho
            rcases List.mem_append.1 ho with ho | ho
            · exact I.fresh _ (by rw [I.count]) o ho
            · obtain rfl := List.mem_singleton.1 ho
              simp [target]
          obtain ⟨f1, f2, f3, f4, f5⟩ := fresh_lists hfr
          simp only [List.getElem?_concat_length, Option.some.injEq] at hl
          rw [I.count, List.getElem?_concat_length, Option.some.injEq] at hk
          subst hl hk
          exact ⟨rfl, rfl, f1.symm, fun f => (f5 f).symm, by rw [tableStyle, f2]; rfl, by rw [headerStyle, f3]; rfl, by rw [cellStyle, f4]; rfl⟩
      · intro j
        show s.slices.getD j [] = _
        rw [I.slice j]
        simp only [sliceOf, hsl, ha]
      · intro k hk o' ho'
        rw [hm] at hk
        rcases List.mem_append.1 ho' with ho' | ho'
        · exact I.fresh k (by simp at hk; omega) o' ho'
        · obtain rfl := List.mem_singleton.1 ho'
          simp [target]
      · intro j hj i
        rw [ha, I.unset j (by rw [hsl] at hj; exact hj)]
    | make cells =>
      simp only [TableBuild.step, Option.some.injEq] at ho
      subst ho
      have hm : made (h ++ [.make cells]) = made h := by simp [made]
      have hsl : slicesOf (h ++ [.make cells]) = slicesOf h ++ [cells] := by simp [slicesOf]
      have ha : ∀ j i, assigned j i (h ++ [.make cells]) = assigned j i h := by simp [assigned]
      refine ⟨by simp [hm, I.count], ?_, by simp [hsl, I.slices], ?_, ?_, ?_⟩
      · intro k c l hk hl
        rw [hm] at hk
        exact Built.keep (by simp [target]) (I.tables k c l hk hl)
      · intro j
        simp only [sliceOf, hsl, ha]
        have old := I.slice j
        simp only [sliceOf] at old
        simp only [List.getD_eq_getElem?_getD] at old ⊢
        rcases Nat.lt_trichotomy j s.slices.length with hj | hj | hj
        · rw [List.getElem?_append_left hj, List.getElem?_append_left (by rw [← I.slices]; exact hj)]
          exact old
        · subst hj
          rw [List.getElem?_concat_length, I.slices, List.getElem?_concat_length]
          simp only [I.unset _ (le_refl _), List.getLast?_nil, Option.getD_none, Option.getD_some]
          exact (List.mapIdx_eq_iff.2 fun i => by simp).symm
        · rw [List.getElem?_eq_none (by simp; omega), List.getElem?_eq_none (by simp [← I.slices]; omega)]
          rfl
      · intro k hk o' ho'
        rw [hm] at hk
        rcases List.mem_append.1 ho' with ho' | ho'
        · exact I.fresh k hk o' ho'
        · obtain rfl := List.mem_singleton.1 ho'
          simp [target]
      · intro j hj i
        rw [ha, I.unset j (by rw [hsl] at hj; simp at hj; omega)]
    | assign sl i c =>
      simp only [TableBuild.step] at ho
      split at ho
      · next hi =>
        obtain rfl := Option.some.inj ho
        have hm : made (h ++ [.assign sl i c]) = made h := by simp [made]
        have hsl : slicesOf (h ++ [.assign sl i c]) = slicesOf h := by simp [slicesOf]
        have ha : ∀ j i', assigned j i' (h ++ [.assign sl i c]) = assigned j i' h ++ if sl = j ∧ i = i' then [c] else [] := by
          intro j i'
          by_cases hc : sl = j ∧ i = i' <;> simp [assigned, List.filterMap_append, hc]
        have hlt : sl < s.slices.length := by
          by_contra hn
          rw [List.getD_eq_getElem?_getD, List.getElem?_eq_none (by omega)] at hi
          simp at hi
        refine ⟨by simp [hm, I.count], ?_, by simp [hsl, I.slices], ?_, ?_, ?_⟩
        · intro k c l hk hl
          rw [hm] at hk
          exact Built.keep (by simp [target]) (I.tables k c l hk hl)
        · intro j
          have old := I.slice j
          simp only [sliceOf, hsl, ha] at old ⊢
          rw [List.getD_eq_getElem?_getD, List.getElem?_modify]
          rw [List.getD_eq_getElem?_getD] at old
          by_cases hj : sl = j
          · subst hj
            rw [List.getElem?_eq_getElem hlt] at old ⊢
            simp only [Option.getD_some] at old
            simp only [Option.map_eq_map, Option.map_some, if_true, Option.getD_some, old, true_and]
            refine List.ext_getElem? fun i' => ?_
            rw [List.getElem?_set, List.getElem?_mapIdx, List.getElem?_mapIdx]
            by_cases hii : i = i'
            · subst hii
              have hlen : i < ((slicesOf h).getD sl []).length := by
                rw [List.getD_eq_getElem?_getD, List.getElem?_eq_getElem hlt, Option.getD_some, old] at hi
                simpa using hi
              rw [List.getElem?_eq_getElem hlen]
              simpa using hlen
            · simp [hii]
          · simp only [hj, if_false, false_and, List.append_nil]
            simpa using old
        · intro k hk o' ho'
          rw [hm] at hk
          rcases List.mem_append.1 ho' with ho' | ho'
          · exact I.fresh k hk o' ho'
          · obtain rfl := List.mem_singleton.1 ho'
            simp [target]
        · intro j hj i'
          rw [hsl] at hj
          rw [ha, I.unset j hj, if_neg]
          · rfl
          · rintro ⟨rfl, -⟩
            rw [I.slices] at hlt
            omega
      · cases ho

/-- **C83** A table is drawn as it was built: after any calls, on any tables and with any slices of the caller, DrawTable of table `k`
draws the table at the place and with the height of rows and the number of rows of the `k`-th NewTableLayout, the columns of its
AddColumn calls in order, the rows of its AddRow and AddStyledRow calls in order, and for the table, its header and its cells the
style that was set last - also if that was after the rows were added - or the default.  Cells of AddRow have the style of the table,
those of AddStyledRow their own. -/
theorem table_as_built (h : List Op) (s : TableBuild.St) (hs : TableBuild.steps {} h = some s) (k : Nat) (x y rowHeight : ℚ) (maxRows : Int)
    (hk : (made h)[k]? = some (x, y, rowHeight, maxRows)) :
    ∃ l, s.tables[k]? = some l ∧ s.table l =
      { startX := x, startY := y, rowHeight := rowHeight, maxRows := maxRows, padding := 2, columns := columnsOf k h, rows := rowsOf k h
        tableStyle := tableStyle k h, headerStyle := headerStyle k h, cellStyle := cellStyle k h } := by
  have I := tables_inv h s hs
  have hlt : k < s.tables.length := by rw [I.count]; exact (List.getElem?_eq_some_iff.1 hk).1
  refine ⟨s.tables[k], List.getElem?_eq_getElem hlt, ?_⟩
  have B := I.tables k _ _ hk (List.getElem?_eq_getElem hlt)
  have hp := B.place
  simp only [Prod.mk.injEq] at hp
  obtain ⟨p1, p2, p3, p4⟩ := hp
  unfold TableBuild.St.table
  rw [p1, p2, p3, p4, B.padding, B.columns, B.table, B.header, B.cell]
  congr 1
  refine (B.rows fun j => s.slices.getD j []).trans ?_
  unfold rowsOf
  refine List.filterMap_congr fun o _ => ?_
  cases o <;> simp [← I.slice]

/-- **C83** The cells: the `j`-th cell of the `r`-th row added is drawn in column `j` - to the right of the columns added before it - `r + 1`
heights of a row below the top, with its text, aligned as its column says, in its own style or else that set last. -/
theorem cell_as_built (h : List Op) (s : TableBuild.St) (hs : TableBuild.steps {} h = some s) (k : Nat) (x y rowHeight : ℚ) (maxRows : Int)
    (hk : (made h)[k]? = some (x, y, rowHeight, maxRows)) (hrows : ∀ row ∈ rowsOf k h, row.length ≤ (columnsOf k h).length)
    (r j : Nat) (row : List RowCell) (cell : RowCell) (col : Table.Column) (hr : (rowsOf k h)[r]? = some row) (hj : row[j]? = some cell)
    (hc : (columnsOf k h)[j]? = some col) :
    ∃ l cells, s.tables[k]? = some l ∧ Table.cells (s.table l) = some cells ∧
      ⟨x + (((columnsOf k h).take j).map (·.width)).sum, y + (r + 1 : Nat) * rowHeight, col.width, rowHeight, cell.content, col.align, false,
        cell.style.getD (cellStyle k h)⟩ ∈ cells := by
  obtain ⟨l, hl, ht⟩ := table_as_built h s hs k x y rowHeight maxRows hk
  refine ⟨l, _, hl, table_cells _ (by rw [ht]; exact hrows), ?_⟩
  rw [ht]
  refine List.mem_append.2 (.inl (List.mem_append.2 (.inr ?_)))
  refine List.mem_flatten.2 ⟨_, List.mem_mapIdx.2 ⟨r, (List.getElem?_eq_some_iff.1 hr).1, rfl⟩, ?_⟩
  refine List.mem_mapIdx.2 ⟨j, ?_, ?_⟩
  · rw [(List.getElem?_eq_some_iff.1 hr).2]
    exact (List.getElem?_eq_some_iff.1 hj).1
  · have h1 : (rowsOf k h)[r]'(List.getElem?_eq_some_iff.1 hr).1 = row := (List.getElem?_eq_some_iff.1 hr).2
    have h2 : ∀ (row' : List RowCell) (e : row' = row) (hlt : j < row'.length), row'[j] = cell := by
      rintro _ rfl hlt
      exact (List.getElem?_eq_some_iff.1 hj).2
    simp only [TableSpec.placed, TableSpec.offset, TableSpec.column, List.getD_eq_getElem?_getD, hc, Option.getD_some]
    rw [h2 _ h1]

/-- Two tables.  The first has a column added after a row, and a style set after it; the caller changes the slice of its second row. -/
def buildHistory : List Op :=
  [.newTable 10 20 15 2, .newTable 50 20 15 1, .addColumn 0 [65] 30 [99, 101, 110, 116, 101, 114], .addColumn 1 [67] 40 [],
    .addRow 0 [[66], [67]], .addColumn 0 [68] 35 [82, 105, 103, 104, 116], .make [⟨[69], some { size := 8 }⟩, ⟨[70], none⟩],
    .addStyledRow 0 0, .setCellStyle 0 { size := 9 }, .assign 0 0 ⟨[71], some { size := 7 }⟩]

/-- "Right" is not "right". -/
theorem build_table : ((TableBuild.steps {} buildHistory).bind fun s => s.tables[0]?.map fun l => ((s.table l).columns, (s.table l).rows, (s.table l).cellStyle)) =
    some ([⟨[65], 30, .center⟩, ⟨[68], 35, .left⟩], [[⟨[66], none⟩, ⟨[67], none⟩], [⟨[71], some { size := 7 }⟩, ⟨[70], none⟩]], { size := 9 }) := by
  decide +kernel

-- the hypotheses are met
example : (TableBuild.steps {} buildHistory).isSome = true ∧ (made buildHistory)[0]? = some (10, 20, 15, 2) ∧
    (∀ row ∈ rowsOf 0 buildHistory, row.length ≤ (columnsOf 0 buildHistory).length) ∧
    (rowsOf 0 buildHistory)[1]? = some [⟨[71], some { size := 7 }⟩, ⟨[70], none⟩] ∧ (columnsOf 0 buildHistory)[1]? = some ⟨[68], 35, .left⟩ := by
  refine ⟨?_, ?_, ?_, ?_, ?_⟩ <;> decide +kernel

/-- **C83** (counterexample)  AddStyledRow does not copy the row: a caller that fills the same slice again for the next row has both
rows drawn with the cells of the last one. -/
theorem styled_row_copied_fails : ∃ (h : List Op) (s : TableBuild.St) (l : Layout), TableBuild.steps {} h = some s ∧ s.tables[0]? = some l ∧
    h = [.newTable 0 0 10 2, .addColumn 0 [65] 30 [], .make [⟨[66], none⟩], .addStyledRow 0 0, .assign 0 0 ⟨[67], none⟩, .addStyledRow 0 0] ∧
    (s.table l).rows = [[⟨[67], none⟩], [⟨[67], none⟩]] :=
  ⟨_, _, _, rfl, rfl, rfl, rfl⟩

end Verif.Props
