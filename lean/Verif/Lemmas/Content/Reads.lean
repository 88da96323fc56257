import Verif.Lemmas.Content.Numbers
/- Reading back what is written, operator by operator. -/
namespace Verif.Content
open ContentReader TextRun
open Paint (Op Colour PaintKind)

theorem feedAll_append : ∀ (a b : Bytes) (m : Mode), feedAll m (a ++ b) =
    (feedAll m a).bind fun r => (feedAll r.2 b).map fun r' => (r.1 ++ r'.1, r'.2)
  | [], b, m => by
    simp only [List.nil_append, feedAll, Option.bind_some]
    cases feedAll m b <;> simp
  | x :: a, b, m => by
    simp only [List.cons_append, feedAll]
    cases feed m x with
    | none => rfl
    | some r =>
      simp only [Option.bind_some]
      rw [feedAll_append a b r.2]
      cases feedAll r.2 a with
      | none => rfl
      | some r1 =>
        simp only [Option.bind_some, Option.map_some]
        cases feedAll r1.2 b <;> simp

theorem parseAll_append : ∀ (a b : List Token) (s : PState), parseAll s (a ++ b) =
    (parseAll s a).bind fun r => (parseAll r.2 b).map fun r' => (r.1 ++ r'.1, r'.2)
  | [], b, s => by
    simp only [List.nil_append, parseAll, Option.bind_some]
    cases parseAll s b <;> simp
  | x :: a, b, s => by
    simp only [List.cons_append, parseAll]
    cases parse s x with
    | none => rfl
    | some r =>
      simp only [Option.bind_some]
      rw [parseAll_append a b r.2]
      cases parseAll r.2 a with
      | none => rfl
      | some r1 =>
        simp only [Option.bind_some, Option.map_some]
        cases parseAll r1.2 b <;> simp

theorem feed_word : ∀ (w pre : Bytes), (∀ b ∈ w, isRegular b = true) →
    feedAll (.word pre) w = some ([], .word (pre ++ w))
  | [], pre, _ => by simp [feedAll]
  | b :: w, pre, h => by
    simp only [feedAll, feed, h b (by simp), if_true, Option.bind_some]
    rw [feed_word w (pre ++ [b]) (fun x hx => h x (by simp [hx]))]
    simp

theorem feed_name : ∀ (w pre : Bytes), (∀ b ∈ w, isRegular b = true) →
    feedAll (.name pre) w = some ([], .name (pre ++ w))
  | [], pre, _ => by simp [feedAll]
  | b :: w, pre, h => by
    simp only [feedAll, feed, h b (by simp), if_true, Option.bind_some]
    rw [feed_name w (pre ++ [b]) (fun x hx => h x (by simp [hx]))]
    simp

theorem feed_gap {w : Bytes} (hw : w ≠ []) (h : ∀ b ∈ w, isRegular b = true) :
    feedAll .gap w = some ([], .word w) := by
  cases w with
  | nil => exact absurd rfl hw
  | cons b w =>
    simp only [feedAll, feed, h b (by simp), if_true, Option.bind_some]
    rw [feed_word w [b] (fun x hx => h x (by simp [hx]))]
    simp

theorem white_not_regular {b : UInt8} (h : isWhite b = true) : isRegular b = false := by simp [isRegular, h]

/-- A word ended by white space. -/
theorem lex_word {w : Bytes} {b : UInt8} (hw : w ≠ []) (h : ∀ x ∈ w, isRegular x = true) (hb : isWhite b = true) :
    feedAll .gap (w ++ [b]) = some ([.word w], .gap) := by
  rw [feedAll_append, feed_gap hw h]
  simp [feedAll, feed, white_not_regular hb, boundary, hb]

/-- A name ended by white space. -/
theorem lex_name {w : Bytes} {b : UInt8} (h : ∀ x ∈ w, isRegular x = true) (hb : isWhite b = true) :
    feedAll .gap (47 :: w ++ [b]) = some ([.name w], .gap) := by
  have h1 : feedAll .gap [47] = some ([], .name []) := by decide
  rw [show 47 :: w ++ [b] = [47] ++ (w ++ [b]) by simp, feedAll_append, h1]
  simp only [Option.bind_some]
  rw [feedAll_append, feed_name w [] h]
  simp [feedAll, feed, white_not_regular hb, boundary, hb]

/-- Bytes that are operands: complete tokens that push `a`. -/
def Args (s : Bytes) (a : List Operand) : Prop :=
  ∃ ts, feedAll .gap s = some (ts, .gap) ∧ ∀ l, parseAll ⟨l, none⟩ ts = some ([], ⟨l ++ a, none⟩)

theorem Args.nil : Args [] [] := ⟨[], rfl, fun l => by simp [parseAll]⟩

theorem Args.append {s t : Bytes} {a b : List Operand} (h1 : Args s a) (h2 : Args t b) : Args (s ++ t) (a ++ b) := by
  obtain ⟨t1, f1, p1⟩ := h1
  obtain ⟨t2, f2, p2⟩ := h2
  refine ⟨t1 ++ t2, ?_, fun l => ?_⟩
  · rw [feedAll_append, f1]; simp [f2]
  · rw [parseAll_append, p1]; simp [p2]

theorem Args.white {b : UInt8} (hb : isWhite b = true) : Args [b] [] :=
  ⟨[], by simp [feedAll, feed, white_not_regular hb, boundary, hb], fun l => by simp [parseAll]⟩

theorem Args.num {w : Bytes} {v : ℚ} {b : UInt8} (h : IsNum w v) (hb : isWhite b = true) : Args (w ++ [b]) [.num v] :=
  ⟨[.word w], lex_word h.1 h.2.1 hb, fun l => by simp [parseAll, parse, h.2.2]⟩

theorem Args.name {w : Bytes} {b : UInt8} (h : ∀ x ∈ w, isRegular x = true) (hb : isWhite b = true) :
    Args (47 :: w ++ [b]) [.name w] :=
  ⟨[.name w], lex_name h hb, fun l => by simp [parseAll, parse]⟩

/-- Bytes that are complete operators. -/
def Reads (s : Bytes) (o : List Op) : Prop :=
  ∃ ts, feedAll .gap s = some (ts, .gap) ∧ parseAll {} ts = some (o, {})

theorem Reads.nil : Reads [] [] := ⟨[], rfl, rfl⟩

theorem Reads.append {s t : Bytes} {a b : List Op} (h1 : Reads s a) (h2 : Reads t b) : Reads (s ++ t) (a ++ b) := by
  obtain ⟨t1, f1, p1⟩ := h1
  obtain ⟨t2, f2, p2⟩ := h2
  refine ⟨t1 ++ t2, ?_, ?_⟩
  · rw [feedAll_append, f1]; simp [f2]
  · rw [parseAll_append, p1]; simp [p2]

theorem Reads.white {b : UInt8} (hb : isWhite b = true) : Reads [b] [] :=
  ⟨[], by simp [feedAll, feed, white_not_regular hb, boundary, hb], rfl⟩

/-- Operands, their operator, white space. -/
theorem Reads.op {s w : Bytes} {a : List Operand} {o : List Op} {b : UInt8} (h : Args s a) (hw : w ≠ [])
    (hr : ∀ x ∈ w, isRegular x = true) (hn : number w = none) (ho : operator w a = some o) (hb : isWhite b = true) :
    Reads (s ++ (w ++ [b])) o := by
  obtain ⟨t1, f1, p1⟩ := h
  refine ⟨t1 ++ [.word w], ?_, ?_⟩
  · rw [feedAll_append, f1]; simp [lex_word hw hr hb]
  · rw [parseAll_append, show ({} : PState) = ⟨[], none⟩ from rfl, p1]
    simp [parseAll, parse, hn, ho]

theorem Reads.operators {s : Bytes} {o : List Op} (h : Reads s o) : operators s = some o := by
  obtain ⟨ts, f, p⟩ := h
  simp [ContentReader.operators, tokens, f, p]

/-- Bytes that are read as the operators `o` up to rounding. -/
def Good (s : Bytes) (o : List Op) : Prop := ∃ o', Reads s o' ∧ List.Forall₂ NearOp o' o

theorem Good.nil : Good [] [] := ⟨[], .nil, .nil⟩

theorem forall₂_append {α β : Type} {R : α → β → Prop} : ∀ {a : List α} {a' : List β} {b : List α} {b' : List β},
    List.Forall₂ R a a' → List.Forall₂ R b b' → List.Forall₂ R (a ++ b) (a' ++ b')
  | [], _, _, _, .nil, h => h
  | _ :: _, _ :: _, _, _, .cons h t, h' => .cons h (forall₂_append t h')

theorem Good.append {s t : Bytes} {a b : List Op} (h1 : Good s a) (h2 : Good t b) : Good (s ++ t) (a ++ b) := by
  obtain ⟨a', r1, f1⟩ := h1
  obtain ⟨b', r2, f2⟩ := h2
  exact ⟨a' ++ b', r1.append r2, forall₂_append f1 f2⟩

theorem Good.exact {s : Bytes} {o : List Op} (h : Reads s o) (hn : ∀ x ∈ o, NearOp x x) : Good s o := by
  refine ⟨o, h, ?_⟩
  clear h
  induction o with
  | nil => exact .nil
  | cons x o ih => exact .cons (hn x (by simp)) (ih (fun y hy => hn y (by simp [hy])))

theorem Good.of {s : Bytes} {o' o : Op} (h : Reads s [o']) (hn : NearOp o' o) : Good s [o] := ⟨[o'], h, .cons hn .nil⟩

/-- `q`, `Q` and the like. -/
theorem Reads.plain {w : Bytes} {o : List Op} {b : UInt8} (hw : w ≠ []) (hr : ∀ x ∈ w, isRegular x = true)
    (hn : number w = none) (ho : operator w [] = some o) (hb : isWhite b = true) : Reads (w ++ [b]) o := by
  simpa using Reads.op Args.nil hw hr hn ho hb

end Verif.Content
