import Verif.Spec.Table
import Verif.Props.MultiCell
import Mathlib.Tactic.Linarith
/- Tables: proofs. -/
namespace Verif.TableSpec
open Table Content
open Units (toPoints fromPoints)

/-! ### Layout -/

def sums (cols : List Column) (j : Nat) : ℚ := ((cols.take j).map (·.width)).sum

theorem sums_cons (c : Column) (cols : List Column) (j : Nat) : sums (c :: cols) (j + 1) = c.width + sums cols j := by
  simp [sums]

theorem plainRow_eq (y h : ℚ) (header : Bool) (st : CellStyle) : ∀ (cols : List Column) (x : ℚ), plainRow x y h header st cols =
    (List.range cols.length).map fun j => ⟨x + sums cols j, y, (cols.getD j ⟨[], 0, .left⟩).width, h,
      if header then (cols.getD j ⟨[], 0, .left⟩).header else [], if header then .center else (cols.getD j ⟨[], 0, .left⟩).align, header, st⟩ := by
  intro cols
  induction cols with
  | nil => intro x; rfl
  | cons c cols ih =>
    intro x
    rw [plainRow, ih, List.length_cons, List.range_succ_eq_map, List.map_cons, List.map_map]
    congr 1
    · simp [sums]
    · refine List.map_congr_left fun j _ => ?_
      simp [sums_cons, add_assoc]

theorem dataRow_eq (t : Table) (y : ℚ) : ∀ (cols : List Column) (row : List RowCell) (x : ℚ), dataRow t y x cols row =
    if row.length ≤ cols.length then some (row.mapIdx fun j c => ⟨x + sums cols j, y, (cols.getD j ⟨[], 0, .left⟩).width, t.rowHeight,
      c.content, (cols.getD j ⟨[], 0, .left⟩).align, false, c.style.getD t.cellStyle⟩) else none := by
  intro cols
  induction cols with
  | nil => intro row x; cases row <;> simp [dataRow]
  | cons c cols ih =>
    intro row x
    cases row with
    | nil => simp [dataRow]
    | cons a row =>
      rw [dataRow, ih]
      by_cases h : row.length ≤ cols.length
      · simp only [h, if_true, Option.map_some, List.length_cons, Nat.add_le_add_iff_right, List.mapIdx_cons, Option.some.injEq, List.cons.injEq]
        refine ⟨by simp [sums], ?_⟩
        congr 1
        funext j a
        simp [sums_cons, add_assoc]
      · simp [h]

theorem dataRows_eq (t : Table) : ∀ (rows : List (List RowCell)) (y : ℚ), dataRows t y rows =
    if (∀ row ∈ rows, row.length ≤ t.columns.length) then
      some (rows.mapIdx fun k row => row.mapIdx fun j c => (⟨t.startX + offset t j, y + k * t.rowHeight, (column t j).width, t.rowHeight,
        c.content, (column t j).align, false, c.style.getD t.cellStyle⟩ : Cell)).flatten else none := by
  intro rows
  induction rows with
  | nil => intro y; simp [dataRows]
  | cons row rows ih =>
    intro y
    rw [dataRows, dataRow_eq, ih]
    by_cases h1 : row.length ≤ t.columns.length
    · by_cases h2 : ∀ row ∈ rows, row.length ≤ t.columns.length
      · have h3 : ∀ r ∈ row :: rows, r.length ≤ t.columns.length := by
          intro r hr; rcases List.mem_cons.1 hr with rfl | hr
          · exact h1
          · exact h2 r hr
        rw [if_pos h1, if_pos h2, if_pos h3]
        simp only [Option.bind_some, Option.map_some, List.mapIdx_cons, List.flatten_cons, Option.some.injEq]
        congr 1
        · simp [offset, sums, column]
        · congr 2
          funext k row
          congr 1
          funext j c
          push_cast
          congr 1
          ring
      · have h3 : ¬ ∀ r ∈ row :: rows, r.length ≤ t.columns.length := fun h => h2 fun r hr => h r (by simp [hr])
        rw [if_pos h1, if_neg h2, if_neg h3]
        rfl
    · have h3 : ¬ ∀ r ∈ row :: rows, r.length ≤ t.columns.length := fun h => h1 (h row (by simp))
      rw [if_neg h1, if_neg h3]
      rfl

theorem blankRows_eq (t : Table) : ∀ (n : Nat) (y : ℚ), blankRows t y n = (List.range n).flatMap fun (b : Nat) =>
    (List.range t.columns.length).map fun j => (⟨t.startX + offset t j, y + b * t.rowHeight, (column t j).width, t.rowHeight, [],
      (column t j).align, false, t.cellStyle⟩ : Cell) := by
  intro n
  induction n with
  | zero => intro y; rfl
  | succ n ih =>
    intro y
    rw [blankRows, ih, plainRow_eq, List.range_succ_eq_map, List.flatMap_cons, List.flatMap_map]
    congr 1
    · simp [offset, sums, column]
    · congr 1
      funext b
      refine List.map_congr_left fun j _ => ?_
      push_cast
      congr 1
      ring

/-! ### Tiling -/

theorem covers_iff (p : ℚ × ℚ) (x y w h : ℚ) (a : List Nat) (b : Align) (c : Bool) (d : CellStyle) :
    covers p ⟨x, y, w, h, a, b, c, d⟩ ↔ x ≤ p.1 ∧ p.1 < x + w ∧ y ≤ p.2 ∧ p.2 < y + h := Iff.rfl

theorem sum_nonneg (cols : List Column) (hw : ∀ c ∈ cols, 0 < c.width) : 0 ≤ (cols.map (·.width)).sum := by
  induction cols with
  | nil => simp
  | cons c cols ih =>
    have := ih fun c hc => hw c (by simp [hc])
    have := hw c (by simp)
    simp only [List.map_cons, List.sum_cons]
    linarith

theorem row_count (p : ℚ × ℚ) (y h : ℚ) : ∀ (cols : List Column) (x : ℚ) (cells : List Cell), (∀ c ∈ cols, 0 < c.width) →
    cells.length = cols.length → (∀ (j : Nat) (c : Cell), cells[j]? = some c → c.x = x + sums cols j ∧ c.y = y ∧ c.height = h ∧
      some c.width = cols[j]?.map (·.width)) →
    cells.countP (fun c => decide (covers p c)) =
      if x ≤ p.1 ∧ p.1 < x + (cols.map (·.width)).sum ∧ y ≤ p.2 ∧ p.2 < y + h then 1 else 0 := by
  intro cols
  induction cols with
  | nil =>
    intro x cells _ hl _
    obtain rfl := List.length_eq_zero_iff.1 hl
    rw [if_neg]; · rfl
    simp only [List.map_nil, List.sum_nil]
    rintro ⟨h1, h2, -⟩
    linarith
  | cons c cols ih =>
    intro x cells hw hl hc
    cases cells with
    | nil => simp at hl
    | cons a cells =>
      have h0 := hc 0 a rfl
      simp only [sums, List.take_zero, List.map_nil, List.sum_nil, add_zero, List.getElem?_cons_zero, Option.map_some, Option.some.injEq] at h0
      obtain ⟨a1, a2, a3, a4⟩ := h0
      have hw0 := hw c (by simp)
      have hs := sum_nonneg cols fun c hc => hw c (by simp [hc])
      rw [List.countP_cons, ih (x + c.width) cells (fun c hc => hw c (by simp [hc])) (by simpa using hl) ?_]
      · simp only [List.map_cons, List.sum_cons]
        have hca : covers p a ↔ x ≤ p.1 ∧ p.1 < x + c.width ∧ y ≤ p.2 ∧ p.2 < y + h := by
          unfold covers; rw [a1, a2, a3, a4]
        simp only [decide_eq_true_eq, hca]
        by_cases hy : y ≤ p.2 ∧ p.2 < y + h
        · simp only [hy, and_true]
          by_cases h1 : x ≤ p.1
          · by_cases h2 : p.1 < x + c.width
            · have n1 : ¬ (x + c.width ≤ p.1 ∧ p.1 < x + c.width + (cols.map (·.width)).sum) := by rintro ⟨h, -⟩; linarith
              have n2 : p.1 < x + (c.width + (cols.map (·.width)).sum) := by linarith
              rw [if_neg n1, if_pos ⟨h1, h2⟩, if_pos ⟨h1, n2⟩]
            · have n1 : x + c.width ≤ p.1 := by linarith
              by_cases h3 : p.1 < x + c.width + (cols.map (·.width)).sum
              · rw [if_pos ⟨n1, h3⟩, if_neg (fun h => h2 h.2), if_pos ⟨h1, by linarith⟩]
              · rw [if_neg (fun h => h3 h.2), if_neg (fun h => h2 h.2), if_neg (fun h => h3 (by linarith [h.2]))]
          · have n1 : ¬ (x + c.width ≤ p.1 ∧ p.1 < x + c.width + (cols.map (·.width)).sum) := by rintro ⟨h, -⟩; linarith
            rw [if_neg n1, if_neg (fun h => h1 h.1), if_neg (fun h => h1 h.1)]
        · have n : ∀ (a b : Prop), ¬ (a ∧ b ∧ y ≤ p.2 ∧ p.2 < y + h) := fun a b h => hy ⟨h.2.2.1, h.2.2.2⟩
          rw [if_neg (n _ _), if_neg (n _ _), if_neg (n _ _)]
      · intro j b hb
        have := hc (j + 1) b (by simpa using hb)
        rw [sums_cons] at this
        refine ⟨by rw [this.1]; ring, this.2.1, this.2.2.1, by simpa using this.2.2.2⟩

/-- Rows one below the other, each covering its band once. -/
theorem rows_count (p : ℚ × ℚ) (P : Prop) [Decidable P] (h : ℚ) (hh : 0 < h) : ∀ (rows : List (List Cell)) (y : ℚ),
    (∀ (k : Nat) (r : List Cell), rows[k]? = some r → r.countP (fun c => decide (covers p c)) =
      if P ∧ y + k * h ≤ p.2 ∧ p.2 < y + k * h + h then 1 else 0) →
    rows.flatten.countP (fun c => decide (covers p c)) = if P ∧ y ≤ p.2 ∧ p.2 < y + rows.length * h then 1 else 0 := by
  intro rows
  induction rows with
  | nil =>
    intro y _
    rw [if_neg]; · rfl
    simp only [List.length_nil, Nat.cast_zero, zero_mul, add_zero]
    rintro ⟨-, h1, h2⟩
    linarith
  | cons r rows ih =>
    intro y hr
    have h0 := hr 0 r rfl
    rw [List.flatten_cons, List.countP_append, ih (y + h) ?_, h0]
    · have hl : (0 : ℚ) ≤ rows.length * h := by positivity
      simp only [Nat.cast_zero, zero_mul, add_zero, List.length_cons, Nat.cast_add, Nat.cast_one]
      by_cases hP : P
      · simp only [hP, true_and]
        by_cases h1 : y ≤ p.2
        · by_cases h2 : p.2 < y + h
          · have n1 : ¬ (y + h ≤ p.2 ∧ p.2 < y + h + rows.length * h) := by rintro ⟨h, -⟩; linarith
            rw [if_pos ⟨h1, h2⟩, if_neg n1, if_pos ⟨h1, by linarith⟩]
          · have n1 : y + h ≤ p.2 := by linarith
            by_cases h3 : p.2 < y + h + rows.length * h
            · rw [if_neg (fun h => h2 h.2), if_pos ⟨n1, h3⟩, if_pos ⟨h1, by linarith⟩]
            · rw [if_neg (fun h => h2 h.2), if_neg (fun h => h3 h.2), if_neg (fun h => h3 (by linarith [h.2]))]
        · rw [if_neg (fun h => h1 h.1), if_neg (by rintro ⟨h, -⟩; linarith), if_neg (fun h => h1 h.1)]
      · simp [hP]
    · intro k q hk
      have := hr (k + 1) q (by simpa using hk)
      rw [this]
      congr 1
      push_cast
      rw [show y + h + (k : ℚ) * h = y + (k + 1) * h by ring]

theorem rightEdge_eq : ∀ (cols : List Column) (x : ℚ), rightEdge x cols = x + (cols.map (·.width)).sum := by
  intro cols
  induction cols with
  | nil => intro x; simp [rightEdge]
  | cons c cols ih => intro x; rw [rightEdge, ih]; simp [add_assoc]

end Verif.TableSpec
