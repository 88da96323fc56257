import Verif.Model.TextRun
import Verif.Spec.TextShow
import Verif.Lemmas.Hex
import Verif.Lemmas.Bytes
namespace Verif.TextRun
open Verif.TextShow

/-- Four hex digits. -/
def hex4 (n : Nat) : Bytes := padL 4 (hexUp n)

/-- Two bytes, big-endian. -/
def be2 (n : Nat) : Bytes := [UInt8.ofNat (n / 256), UInt8.ofNat (n % 256)]

theorem hexDigit_ne {k : Nat} (h : k < 16) : hexDigit k ≠ 62 ∧ hexDigit k ≠ 10 ∧ hexDigit k ≠ 60 := by
  have : ∀ k < 16, hexDigit k ≠ 62 ∧ hexDigit k ≠ 10 ∧ hexDigit k ≠ 60 := by decide
  exact this k h

theorem hex4_ne {n : Nat} (h : n < 65536) : ∀ b ∈ hex4 n, b ≠ 62 ∧ b ≠ 10 ∧ b ≠ 60 := by
  unfold hex4
  rw [padL_hexUp h]
  intro b hb
  simp only [List.mem_cons, List.not_mem_nil, or_false] at hb
  rcases hb with rfl | rfl | rfl | rfl <;> exact hexDigit_ne (by omega)

theorem hexDecode_hex4 {n : Nat} (h : n < 65536) (rest : Bytes) :
    hexDecode (hex4 n ++ rest) = (hexDecode rest).map fun r => be2 n ++ r := hexDecode_padL h rest

theorem hexDecode_hex4' {n : Nat} (h : n < 65536) : hexDecode (hex4 n) = some (be2 n) := by
  have := hexDecode_hex4 h []
  simpa [hexDecode] using this

theorem hexDecode_flat : ∀ (gs : List Nat), (∀ g ∈ gs, g < 65536) →
    hexDecode (gs.flatMap hex4) = some (gs.flatMap be2) := by
  intro gs
  induction gs with
  | nil => intro _; rfl
  | cons g gs ih =>
    intro h
    rw [List.flatMap_cons, hexDecode_hex4 (h g (by simp)), ih (fun x hx => h x (by simp [hx]))]
    rfl

theorem be2_val {n : Nat} (h : n < 65536) :
    256 * (UInt8.ofNat (n / 256)).toNat + (UInt8.ofNat (n % 256)).toNat = n := by
  simp only [UInt8.toNat_ofNat']
  omega

theorem units_flat : ∀ (gs : List Nat), (∀ g ∈ gs, g < 65536) → Utf16.units (gs.flatMap be2) = some gs := by
  intro gs
  induction gs with
  | nil => intro _; rfl
  | cons g gs ih =>
    intro h
    simp only [List.flatMap_cons, be2, List.cons_append, List.nil_append, Utf16.units]
    have e := ih (fun x hx => h x (by simp [hx]))
    rw [e, be2_val (h g (by simp))]
    rfl

theorem flat_ne {gs : List Nat} (h : ∀ g ∈ gs, g < 65536) : ∀ b ∈ gs.flatMap hex4, (b != 62) = true := by
  intro b hb
  obtain ⟨g, hg, hb⟩ := List.mem_flatMap.1 hb
  simpa using (hex4_ne (h g hg) b hb).1

theorem takeWhile_stop {α : Type} {p : α → Bool} {l r : List α} {x : α} (h : ∀ b ∈ l, p b = true) (hx : p x = false) :
    (l ++ x :: r).takeWhile p = l := by
  induction l with
  | nil => simp [hx]
  | cons a l ih => simp [h a (by simp), ih (fun b hb => h b (by simp [hb]))]

theorem dropWhile_stop {α : Type} {p : α → Bool} {l r : List α} {x : α} (h : ∀ b ∈ l, p b = true) (hx : p x = false) :
    (l ++ x :: r).dropWhile p = x :: r := by
  induction l with
  | nil => simp [hx]
  | cons a l ih => simp [h a (by simp), ih (fun b hb => h b (by simp [hb]))]

theorem decInt_chars (n : Int) : ∀ b ∈ decInt n, (b == 45 || isDigit b) = true := by
  intro b hb
  cases n with
  | ofNat k => have := dec_all_digit k b hb; simp [this]
  | negSucc k =>
    simp only [decInt, List.mem_cons] at hb
    rcases hb with rfl | hb
    · rfl
    · have := dec_all_digit _ b hb; simp [this]

theorem intVal_decInt (n : Int) : intVal (decInt n) = some n := by
  have all : ∀ k, (dec k).all isDigit = true := fun k => List.all_eq_true.2 (dec_all_digit k)
  cases n with
  | ofNat k =>
    have h45 : ∀ ds, dec k ≠ 45 :: ds := by
      intro ds e
      have := dec_all_digit k 45 (by rw [e]; simp)
      revert this; decide
    simp only [decInt]
    have : intVal (dec k) = if dec k ≠ [] ∧ (dec k).all isDigit then some (decVal (dec k) : Int) else none := by
      cases hd : dec k with
      | nil => rfl
      | cons a l =>
        by_cases ha : a = 45
        · subst ha; exact (h45 l hd).elim
        · unfold intVal
          split
          · next ds e => simp at e; exact (ha e.1).elim
          · rfl
    rw [this, if_pos ⟨dec_ne_nil k, all k⟩, decVal_dec]
    rfl
  | negSucc k =>
    simp only [decInt, intVal]
    rw [if_pos ⟨dec_ne_nil _, all _⟩, decVal_dec]
    rfl

/-- Element of the model as an item of the specification. -/
def item : TJ → Item
  | .glyph g => .code g
  | .adj n => .adjust n

/-- Glyph numbers fit in two bytes. -/
def Small (l : List TJ) : Prop := ∀ g, TJ.glyph g ∈ l → g < 65536

theorem arrayItems_run : ∀ (l : List TJ) (gs : List Nat) (fuel : Nat), (∀ g ∈ gs, g < 65536) → Small l →
    2 * l.length + 2 ≤ fuel →
    arrayItems fuel (60 :: (gs.flatMap hex4 ++ (l.flatMap tjElem ++ lit ">] TJ\n"))) =
      some (gs.map Item.code ++ l.map item, lit " TJ\n") := by
  intro l
  induction l with
  | nil =>
    intro gs fuel hgs _ hf
    obtain ⟨f, rfl⟩ : ∃ f, fuel = f + 2 := ⟨fuel - 2, by simp at hf; omega⟩
    have e : lit ">] TJ\n" = 62 :: 93 :: lit " TJ\n" := by decide
    simp only [List.flatMap_nil, List.nil_append, e, arrayItems]
    rw [takeWhile_stop (flat_ne hgs) (by rfl), dropWhile_stop (flat_ne hgs) (by rfl), hexDecode_flat gs hgs]
    simp [codes, units_flat gs hgs, dropPrefix?]
    rw [arrayItems]
    simp
    intro e; cases e
  | cons x l ih =>
    intro gs fuel hgs hs hf
    have hs' : Small l := fun g hg => hs g (by simp [hg])
    cases x with
    | glyph g =>
      have hg : g < 65536 := hs g (by simp)
      have := ih (gs ++ [g]) fuel (by
        intro y hy; simp only [List.mem_append, List.mem_singleton] at hy
        rcases hy with hy | rfl
        · exact hgs y hy
        · exact hg) hs' (by simp at hf; omega)
      simp only [List.flatMap_append, List.flatMap_cons, List.flatMap_nil, List.append_nil, List.append_assoc,
        List.map_append, List.map_cons, List.map_nil, List.cons_append, List.nil_append] at this
      simpa [tjElem, item, hex4] using this
    | adj n =>
      obtain ⟨f, rfl⟩ : ∃ f, fuel = f + 2 := ⟨fuel - 2, by simp at hf; omega⟩
      have hrec := ih [] f (by simp) hs' (by simp at hf; omega)
      simp only [List.flatMap_nil, List.nil_append, List.map_nil] at hrec
      simp only [List.flatMap_cons, tjElem, List.append_assoc, List.cons_append, List.nil_append]
      rw [arrayItems]
      rw [takeWhile_stop (flat_ne hgs) (by rfl), dropWhile_stop (flat_ne hgs) (by rfl), hexDecode_flat gs hgs]
      simp only [Option.bind_some, codes, units_flat gs hgs, Option.map_some, dropPrefix?, if_true,
        Option.bind_eq_bind]
      have step : arrayItems (f + 1) (decInt n ++ 60 :: (l.flatMap tjElem ++ lit ">] TJ\n")) =
          some (Item.adjust n :: l.map item, lit " TJ\n") := by
        obtain ⟨a, ds, hd⟩ : ∃ a ds, decInt n = a :: ds := by
          cases n with
          | ofNat k => exact List.exists_cons_of_ne_nil (dec_ne_nil k)
          | negSucc k => exact ⟨_, _, rfl⟩
        have ha : a ≠ 93 ∧ a ≠ 60 := by
          have := decInt_chars n a (by rw [hd]; simp)
          constructor <;> (rintro rfl; revert this; decide)
        have hnum : arrayItems (f + 1) (decInt n ++ 60 :: (l.flatMap tjElem ++ lit ">] TJ\n")) =
            (do
              let isNum := fun b : UInt8 => b == 45 || isDigit b
              let k ← intVal ((decInt n ++ 60 :: (l.flatMap tjElem ++ lit ">] TJ\n")).takeWhile isNum)
              let (more, tail) ← arrayItems f ((decInt n ++ 60 :: (l.flatMap tjElem ++ lit ">] TJ\n")).dropWhile isNum)
              pure (Item.adjust k :: more, tail)) := by
          rw [hd]
          simp only [List.cons_append]
          rw [arrayItems]
          · intro r e; simp at e; exact ha.1 e.1
          · intro r e; simp at e; exact ha.2 e.1
        rw [hnum]
        simp only
        rw [takeWhile_stop (decInt_chars n) (by rfl), dropWhile_stop (decInt_chars n) (by rfl), intVal_decInt, hrec]
        rfl
      rw [step]
      simp [item]

/-- The TJ operator read back. -/
theorem readTJ_tjBytes {l : List TJ} (h : Small l) : readTJ (tjBytes l) = some (l.map item) := by
  have e : lit "[<" = [91, 60] := by decide
  have hlen : 2 * l.length + 2 ≤ (60 :: (l.flatMap tjElem ++ lit ">] TJ\n")).length + 1 := by
    have : ∀ l : List TJ, 2 * l.length ≤ (l.flatMap tjElem).length := by
      intro l
      induction l with
      | nil => simp
      | cons x l ih =>
        have : 2 ≤ (tjElem x).length := by
          cases x with
          | glyph g => simp [tjElem, padL]; omega
          | adj n => simp [tjElem]
        simp only [List.flatMap_cons, List.length_append, List.length_cons]
        omega
    have := this l
    simp only [List.length_cons, List.length_append]
    omega
  have key := arrayItems_run l [] _ (by simp) h hlen
  simp only [List.flatMap_nil, List.nil_append, List.map_nil] at key
  unfold readTJ tjBytes
  rw [e]
  simp only [List.cons_append, List.nil_append, dropPrefix?, if_true, Option.bind_eq_bind, Option.bind_some, key]

/-! ### Lines and entries -/

theorem lines_append : ∀ (l rest : Bytes), (∀ b ∈ l, b ≠ 10) → lines (l ++ 10 :: rest) = l :: lines rest := by
  intro l rest
  induction l with
  | nil => intro _; simp [lines]
  | cons b l ih =>
    intro h
    have hb : b ≠ 10 := h b (by simp)
    rw [List.cons_append, lines]
    · rw [ih (fun x hx => h x (by simp [hx]))]
    · intro e; exact hb e

theorem angle_hex4 {n : Nat} (h : n < 65536) (rest : Bytes) :
    angle (60 :: (hex4 n ++ 62 :: rest)) = some (be2 n, rest) := by
  have hp : ∀ b ∈ hex4 n, (b != 62) = true := fun b hb => by simpa using (hex4_ne h b hb).1
  unfold angle
  simp only [dropPrefix?, if_true, Option.bind_eq_bind, Option.bind_some]
  rw [dropWhile_stop hp (by rfl), takeWhile_stop hp (by rfl), hexDecode_hex4' h]
  rfl

/-- The line for one glyph, without its newline. -/
def bfLine' (g u : Nat) : Bytes := 60 :: (hex4 g ++ 62 :: 60 :: (hex4 g ++ 62 :: 60 :: (hex4 u ++ [62])))

theorem bfLine_eq (pairs : List (Nat × Nat)) (g : Nat) :
    bfLine pairs g = bfLine' g (runeByIndex pairs g) ++ [10] := by
  simp [bfLine, bfLine', hex4]

theorem entry_bfLine' {g u : Nat} (hg : g < 65536) (hu : u < 65536) :
    entry (bfLine' g u) = some ⟨be2 g, be2 g, be2 u⟩ := by
  unfold entry bfLine'
  simp only [Option.bind_eq_bind, angle_hex4 hg, angle_hex4 hu, Option.bind_some, if_true]

theorem bfLine'_ne {g u : Nat} (hg : g < 65536) (hu : u < 65536) : ∀ b ∈ bfLine' g u, b ≠ 10 := by
  intro b hb
  simp only [bfLine', List.mem_cons, List.mem_append, List.not_mem_nil, or_false] at hb
  rcases hb with rfl | hb | rfl | rfl | hb | rfl | rfl | hb | rfl
  · decide
  · exact (hex4_ne hg b hb).2.1
  · decide
  · decide
  · exact (hex4_ne hg b hb).2.1
  · decide
  · decide
  · exact (hex4_ne hu b hb).2.1
  · decide

end Verif.TextRun
