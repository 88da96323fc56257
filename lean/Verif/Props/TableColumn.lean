import Verif.Props.Column
import Verif.Props.Table
import Verif.Props.ColumnExample
/- C79: the text of a table stays in its columns. -/
set_option maxRecDepth 10000
namespace Verif.Props
open Typeset (Setting setting accepted Face)
open Layout (Has Block From Reached CallOf Makes)
open Column (inCell inUnit FitsIn)

section
variable {base : Content.Env} {prot : Bool} {ml mt : ℚ} {n : Nat} {prog : List Layout.Call} {s : Layout.St}

/-- Every line in a cell is as wide as `W` allows, by the font current where it is drawn. -/
private def InColumns (cfg : Units.Cfg) (before cs : List Typeset.Call) (W : ℚ → Prop) : Prop :=
  ∀ pre c post w line, cs = pre ++ c :: post → inCell c = some (w, line) → W w ∧ (line ≠ [] → FitsIn cfg (before ++ pre) w line)

private theorem InColumns.append {cfg : Units.Cfg} {before a b : List Typeset.Call} {W : ℚ → Prop} (ha : InColumns cfg before a W)
    (hb : InColumns cfg (before ++ a) b W) : InColumns cfg before (a ++ b) W := by
  intro pre c post w line he hi
  rcases List.append_eq_append_iff.1 he with ⟨u, rfl, hu⟩ | ⟨u, rfl, hu⟩
  · rw [← List.append_assoc]
    exact hb u c post w line hu hi
  · cases u with
    | nil =>
      simp only [List.nil_append, List.append_nil] at hu ⊢
      have := hb [] c post w line (by simpa using hu.symm) hi
      simpa using this
    | cons d u =>
      simp only [List.cons_append, List.cons.injEq] at hu
      obtain ⟨rfl, rfl⟩ := hu
      exact ha pre c u w line rfl hi

private theorem InColumns.none {cfg : Units.Cfg} {before cs : List Typeset.Call} {W : ℚ → Prop} (h : ∀ c ∈ cs, inCell c = none) :
    InColumns cfg before cs W := by
  intro pre c post w line he hi
  rw [h c (by simp [he])] at hi
  cases hi

private theorem InColumns.mono {cfg : Units.Cfg} {before cs : List Typeset.Call} {W W' : ℚ → Prop} (h : InColumns cfg before cs W)
    (hW : ∀ w, W w → W' w) : InColumns cfg before cs W' :=
  fun pre c post w line he hi => ⟨hW w (h pre c post w line he hi).1, (h pre c post w line he hi).2⟩

private theorem ofTable_cell (k : Content.Call) : inCell (Layout.ofTable k) = none := by
  cases k <;> rfl

/-- No font was added with kerning. -/
private def Plain (l : Layout.Log) : Prop := ∀ f st face, Typeset.Call.addFont f st face ∈ l.calls → accepted face = true → face.useKerning = false

private theorem Plain.calls {l l' : Layout.Log} {cs : List Typeset.Call} (h : Plain l) (hf : From base l l' cs) (hc : ∀ c ∈ cs, CallOf c) : Plain l' := by
  intro f st face hm ha
  rw [hf.1] at hm
  rcases List.mem_append.1 hm with hm | hm
  · exact h f st face hm ha
  · rcases hc _ hm with hm | ⟨_, _, _, hm⟩
    · exact hm.1.elim
    · cases hm

private theorem Plain.face {l : Layout.Log} (h : Plain l) : ∀ face, (setting l.calls).face = some face → face.useKerning = false := by
  intro face hf
  rcases Typeset.setting_face l.calls {} _ hf with h' | ⟨a, b, h'⟩ | ⟨a, b, h', ha⟩
  · cases h'
  · simp at h'
  · exact h _ _ _ h' ha

private theorem drawCell_columns {l l' : Layout.Log} {t : Table.Table} {c : Table.Cell} (hl : Reached base prot ml mt l) (hp : Plain l)
    (ht : ∀ r ∈ c.content, IsScalar r) (h : Layout.drawCell base n t l c = some l') :
    ∃ cs, From base l l' cs ∧ (∀ k ∈ cs, CallOf k) ∧ InColumns base.cfg l.calls cs (· = c.width - 2 * t.padding) := by
  obtain ⟨l1, h1, h2⟩ := Option.bind_eq_some_iff.1 h
  have f1 := Layout.acts_from _ h1
  have hnone : ∀ k ∈ (Table.cellCalls t c).map Layout.ofTable, inCell k = none := by
    intro k hk
    obtain ⟨j, -, rfl⟩ := List.mem_map.1 hk
    exact ofTable_cell j
  obtain ⟨a, ha, hs⟩ := Layout.cell_calls t c
  have hcall : ∀ k ∈ (Table.cellCalls t c).map Layout.ofTable, CallOf k := by
    rw [ha]
    intro k hk
    rcases List.mem_append.1 hk with hk | hk
    · exact .inl (hs k hk).1
    · cases hfo : c.style.font with
      | none => rw [Layout.cellFont, hfo] at hk; simp at hk
      | some f => rw [Layout.cellFont, hfo] at hk; exact .inr ⟨f, 0, _, List.mem_singleton.1 hk⟩
  obtain ⟨cs, c1, c2, -, -⟩ := Layout.multiCellOpt_from (P := IsScalar) ht (by simp) h2
  refine ⟨_, f1.trans c1, ?_, (InColumns.none hnone).append ?_⟩
  · intro k hk
    rcases List.mem_append.1 hk with hk | hk
    · exact hcall k hk
    · exact .inl (c2 k hk)
  · rw [← f1.1]
    by_cases hne : c.content = []
    · unfold Layout.multiCellOpt at h2
      obtain ⟨lh, -, h2⟩ := Option.bind_eq_some_iff.1 h2
      obtain ⟨l2, h3, h2⟩ := Option.bind_eq_some_iff.1 h2
      rw [if_pos hne, if_pos rfl] at h2
      obtain rfl := Option.some.inj h2
      have : cs = [.measure c.content] := by
        have := c1.1
        rw [(Layout.act_from h3).1] at this
        exact (List.append_cancel_left this).symm
      subst this
      exact InColumns.none (by simp [inCell])
    · obtain ⟨face, space, ds, d1, d2, d3, d4⟩ := wrapped_log_fit (hl.calls f1 hcall) ht rfl hne ((hp.calls f1 hcall).face) h2
      have : ds = cs := by
        have := c1.1
        rw [d3] at this
        exact List.append_cancel_left this
      subst this
      intro pre k post w line he hi
      have hm : (w, line) ∈ ds.filterMap inCell := List.mem_filterMap.2 ⟨k, by simp [he], hi⟩
      obtain ⟨rfl, hfit⟩ := d4 w line hm
      refine ⟨rfl, fun hl' => ?_⟩
      obtain ⟨m, m1, m2⟩ := hfit hl'
      have hset : setting (l1.calls ++ pre) = setting l1.calls := by
        have : ∀ k ∈ pre, Layout.Still k := fun k hk => (c2 k (by simp [he, hk])).1
        rw [Typeset.setting, List.foldl_append, Layout.still_setting _ _ this]
        rfl
      exact ⟨face, space, m, by rw [hset]; exact d1, by rw [hset]; exact d2, m1, by rw [hset]; exact m2⟩

private theorem drawCells_columns {t : Table.Table} : ∀ (cells : List Table.Cell) {l l' : Layout.Log}, Reached base prot ml mt l → Plain l →
    (∀ c ∈ cells, ∀ r ∈ c.content, IsScalar r) → Layout.drawCells base n t l cells = some l' →
    ∃ cs, From base l l' cs ∧ (∀ k ∈ cs, CallOf k) ∧ InColumns base.cfg l.calls cs (fun w => ∃ c ∈ cells, w = c.width - 2 * t.padding)
  | [], l, l', _, _, _, h => by
    simp only [Layout.drawCells, Option.some.injEq] at h
    subst h
    exact ⟨[], From.refl base l, by simp, InColumns.none (by simp)⟩
  | c :: cells, l, l', hl, hp, ht, h => by
    obtain ⟨l1, h1, h2⟩ := Option.bind_eq_some_iff.1 h
    obtain ⟨cs, a1, a2, a3⟩ := drawCell_columns hl hp (ht c (by simp)) h1
    obtain ⟨ds, b1, b2, b3⟩ := drawCells_columns cells (hl.calls a1 a2) (hp.calls a1 a2) (fun c hc => ht c (by simp [hc])) h2
    refine ⟨_, a1.trans b1, ?_, (a3.mono fun w hw => ⟨c, by simp, hw⟩).append ?_⟩
    · intro k hk
      rcases List.mem_append.1 hk with hk | hk
      · exact a2 k hk
      · exact b2 k hk
    · rw [← a1.1]
      exact b3.mono fun w ⟨c, hc, hw⟩ => ⟨c, by simp [hc], hw⟩

private theorem cell_column {t : Table.Table} (h : ∀ row ∈ t.rows, row.length ≤ t.columns.length) {c : Table.Cell}
    (hc : c ∈ TableSpec.headerCells t ++ TableSpec.dataCells t ++ TableSpec.blankCells t) : ∃ col ∈ t.columns, c.width = col.width := by
  have key : ∀ j, j < t.columns.length → ∃ col ∈ t.columns, (TableSpec.column t j).width = col.width := by
    intro j hj
    refine ⟨t.columns[j], List.getElem_mem hj, ?_⟩
    simp [TableSpec.column, List.getD_eq_getElem?_getD, List.getElem?_eq_getElem hj]
  simp only [List.mem_append] at hc
  rcases hc with (hc | hc) | hc
  · simp only [TableSpec.headerCells, List.mem_map, List.mem_range] at hc
    obtain ⟨j, hj, rfl⟩ := hc
    exact key j hj
  · simp only [TableSpec.dataCells, List.mem_flatten, List.mem_mapIdx] at hc
    obtain ⟨row, ⟨k, hk, rfl⟩, hc⟩ := hc
    simp only [List.mem_mapIdx] at hc
    obtain ⟨j, hj, rfl⟩ := hc
    exact key j (lt_of_lt_of_le hj (h _ (List.getElem_mem hk)))
  · simp only [TableSpec.blankCells, List.mem_flatMap, List.mem_map, List.mem_range] at hc
    obtain ⟨b, -, j, hj, rfl⟩ := hc
    exact key j hj

/-- **C79** The text of a table stays in its columns: whatever was called before, if no font was added with kerning, every line that
DrawTable puts in a cell is put in one as wide as a column without its padding on both sides, and the width of the line - by the file
of the font that is current where the line is drawn, which may be that of the cell's own style - is at most that. -/
theorem table_lines_fit (h : Typed base prot ml mt n prog s) {t : Table.Table} (ht : ∀ u ∈ (Block.table t).texts, ∀ r ∈ u, IsScalar r)
    (hkern : ∀ f st face, Has prog (.basic (.addFont f st face)) → accepted face = true → face.useKerning = false) {l' : Layout.Log}
    (hcall : Layout.drawTable base n s.log t = some l') :
    ∃ cs, l'.calls = s.log.calls ++ cs ∧ ∀ pre c post w line, cs = pre ++ c :: post → inCell c = some (w, line) →
      (∃ col ∈ t.columns, w = col.width - 2 * t.padding) ∧ (line ≠ [] → FitsIn base.cfg (s.log.calls ++ pre) w line) := by
  obtain ⟨hr, -⟩ := h.reached
  have hp : Plain s.log := fun f st face hm ha => hkern f st face (h.added hm) ha
  obtain ⟨cells, h1, hcall⟩ := Option.bind_eq_some_iff.1 hcall
  obtain ⟨l1, h2, h3⟩ := Option.bind_eq_some_iff.1 hcall
  have hrow : ∀ row ∈ t.rows, row.length ≤ t.columns.length := by
    by_contra hn
    rw [Table.cells, Verif.TableSpec.dataRows_eq, if_neg hn] at h1
    cases h1
  rw [table_cells t hrow, Option.some.injEq] at h1
  subst h1
  obtain ⟨cs, c1, c2, c3⟩ := drawCells_columns _ hr hp (fun c hc r hr' => by
    rcases Layout.table_texts hc with he | he
    · simp [he] at hr'
    · exact ht _ he r hr') h2
  refine ⟨_, (c1.trans (Layout.acts_from _ h3)).1, ?_⟩
  refine InColumns.append (c3.mono ?_) (InColumns.none ?_)
  · rintro w ⟨c, hc, rfl⟩
    obtain ⟨col, h5, h6⟩ := cell_column hrow hc
    exact ⟨col, h5, by rw [h6]⟩
  · intro k hk
    obtain ⟨j, -, rfl⟩ := List.mem_map.1 hk
    exact ofTable_cell j

end

/-- Two columns, 16 and 18 wide; the second cell of the row has its own size. -/
def columnTable : Table.Table :=
  { startX := 10, startY := 20, rowHeight := 30, maxRows := 1
    columns := [⟨[65], 16, .left⟩, ⟨[66], 18, .right⟩]
    rows := [[⟨[65, 66, 65], none⟩, ⟨[66, 65], some { font := some 1, size := 20 }⟩]] }

/-- The header, "AB" and "A" in the first column, and at twice the size "B" and "A" in the second. -/
theorem table_column_lines : (Layout.drawTable demoEnv 100 (columnState plainFace).log columnTable).map
    (fun l => l.calls.filterMap inCell) = some [(12, [65]), (14, [66]), (12, [65, 66]), (12, [65]), (14, [66]), (14, [65])] := by decide +kernel

-- the hypotheses of the theorem are met
example : ∃ l' cs, Layout.drawTable demoEnv 100 (columnState plainFace).log columnTable = some l' ∧ l'.calls = (columnState plainFace).log.calls ++ cs ∧
    ∀ pre c post w line, cs = pre ++ c :: post → inCell c = some (w, line) → (∃ col ∈ columnTable.columns, w = col.width - 2 * columnTable.padding) ∧
      (line ≠ [] → FitsIn demoEnv.cfg ((columnState plainFace).log.calls ++ pre) w line) := by
  obtain ⟨l', hl, -⟩ := Option.map_eq_some_iff.1 table_column_lines
  obtain ⟨cs, h1, h2⟩ := table_lines_fit (column_typed plainFace (.inl rfl)) (t := columnTable) (by simp [Block.texts, columnTable, IsScalar]) (by
    rintro f st face (h | ⟨g, k, h, -⟩) _
    · simp [columnProgram] at h
      obtain ⟨-, -, rfl⟩ := h
      rfl
    · simp [columnProgram] at h) hl
  exact ⟨l', cs, hl, h1, h2⟩

end Verif.Props
