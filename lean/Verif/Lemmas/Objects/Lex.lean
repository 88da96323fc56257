import Verif.Spec.PdfObject
import Verif.Lemmas.Content.Numbers
/- Reading objects: tokens of pieces of text. -/
namespace Verif.PdfObject
open ContentReader (isWhite isDelim isRegular number nat)

/-- Feed a byte string. -/
def feedAll : Mode → Bytes → Option (List Tok × Mode)
  | m, [] => some ([], m)
  | m, b :: bs => (feed m b).bind fun r => (feedAll r.2 bs).map fun r' => (r.1 ++ r'.1, r'.2)

theorem feedAll_append (m : Mode) (a b : Bytes) : feedAll m (a ++ b) =
    (feedAll m a).bind fun r => (feedAll r.2 b).map fun r' => (r.1 ++ r'.1, r'.2) := by
  induction a generalizing m with
  | nil => simp [feedAll]
  | cons x a ih =>
    simp only [List.cons_append, feedAll]
    cases feed m x with
    | none => rfl
    | some r =>
      simp only [Option.bind_some, ih]
      cases feedAll r.2 a with
      | none => rfl
      | some r' =>
        simp only [Option.bind_some, Option.map_some]
        cases feedAll r'.2 b with
        | none => rfl
        | some r'' => simp

@[simp] theorem feedAll_nil (m : Mode) : feedAll m [] = some ([], m) := rfl

/-- Continue after a prefix whose tokens are known. -/
theorem feedAll_then {m m' : Mode} {a b : Bytes} {ts : List Tok} (h : feedAll m a = some (ts, m')) :
    feedAll m (a ++ b) = (feedAll m' b).map fun r => (ts ++ r.1, r.2) := by
  rw [feedAll_append, h]; rfl

/-- The first byte is not a regular character. -/
def Starts (a : Bytes) : Bool := match a with
  | [] => false
  | b :: _ => !isRegular b

theorem feedAll_word {w a : Bytes} (h : Starts a = true) :
    feedAll (.word w) a = (feedAll .gap a).map fun r => (.word w :: r.1, r.2) := by
  cases a with
  | nil => simp [Starts] at h
  | cons b a =>
    simp only [Starts, Bool.not_eq_true'] at h
    simp only [feedAll, feed, h]
    cases boundary b with
    | none => rfl
    | some r =>
      simp only [Bool.false_eq_true, if_false, Option.map_some, Option.bind_some]
      cases feedAll r.2 a <;> rfl

theorem feedAll_name {w a : Bytes} (h : Starts a = true) :
    feedAll (.name w) a = (feedAll .gap a).map fun r => (.name w :: r.1, r.2) := by
  cases a with
  | nil => simp [Starts] at h
  | cons b a =>
    simp only [Starts, Bool.not_eq_true'] at h
    have h35 : b ≠ 35 := by rintro rfl; revert h; decide
    simp only [feedAll, feed, h]
    cases boundary b with
    | none => simp [h35]
    | some r =>
      simp only [if_neg h35, Bool.false_eq_true, if_false, Option.map_some, Option.bind_some]
      cases feedAll r.2 a <;> rfl

/-- Only regular characters. -/
def Reg (w : Bytes) : Prop := ∀ b ∈ w, isRegular b = true

/-- Only regular characters, and no `#`. -/
def NameChars (w : Bytes) : Prop := ∀ b ∈ w, isRegular b = true ∧ b ≠ 35

theorem feedAll_word_reg {v w : Bytes} (h : Reg w) : feedAll (.word v) w = some ([], .word (v ++ w)) := by
  induction w generalizing v with
  | nil => simp
  | cons b w ih =>
    have hb := h b (by simp)
    simp only [feedAll, feed, hb, if_true, Option.bind_some]
    rw [ih (fun c hc => h c (by simp [hc]))]
    simp

theorem feedAll_reg {w : Bytes} (h : Reg w) (hne : w ≠ []) : feedAll .gap w = some ([], .word w) := by
  cases w with
  | nil => exact absurd rfl hne
  | cons b w =>
    have hb := h b (by simp)
    simp only [feedAll, feed, hb, if_true, Option.bind_some]
    rw [feedAll_word_reg (fun c hc => h c (by simp [hc]))]
    simp

theorem feedAll_name_reg {v w : Bytes} (h : NameChars w) : feedAll (.name v) w = some ([], .name (v ++ w)) := by
  induction w generalizing v with
  | nil => simp
  | cons b w ih =>
    obtain ⟨hb, h35⟩ := h b (by simp)
    simp only [feedAll, feed, hb, if_true, if_neg h35, Option.bind_some]
    rw [ih (fun c hc => h c (by simp [hc]))]
    simp

/-! ### Scanning -/

theorem push_endobj (st : List Entry) : push st (.word (lit "endobj")) = none := by
  have h : number (lit "endobj") = none := by decide +kernel
  simp only [push, h, keyword]
  rw [if_neg (by decide), if_neg (by decide), if_neg (by decide), if_neg (by decide)]

theorem push_stream (st : List Entry) : push st (.word (lit "stream")) = none := by
  have h : number (lit "stream") = none := by decide +kernel
  simp only [push, h, keyword]
  rw [if_neg (by decide), if_neg (by decide), if_neg (by decide), if_neg (by decide)]

theorem push_startxref (st : List Entry) : push st (.word (lit "startxref")) = none := by
  have h : number (lit "startxref") = none := by decide +kernel
  simp only [push, h, keyword]
  rw [if_neg (by decide), if_neg (by decide), if_neg (by decide), if_neg (by decide)]

theorem pushAll_append (st : List Entry) (a b : List Tok) :
    pushAll st (a ++ b) = (pushAll st a).bind fun st => pushAll st b := by
  induction a generalizing st with
  | nil => rfl
  | cons t a ih =>
    simp only [List.cons_append, pushAll]
    cases push st t with
    | none => rfl
    | some st => simp [ih]

theorem ending_none {st st' : List Entry} {ts : List Tok} (h : pushAll st ts = some st') (b : UInt8) : ending ts b = none := by
  unfold ending
  rw [if_neg (by
    rintro rfl
    simp [pushAll, push_endobj] at h), if_neg (by
    rintro rfl
    simp [pushAll, push_startxref] at h), if_neg (by
    rintro ⟨rfl, _⟩
    simp [pushAll, push_stream] at h)]

theorem scan_append {m m' : Mode} {a b : Bytes} {ts : List Tok} {st st' : List Entry}
    (h : feedAll m a = some (ts, m')) (h' : pushAll st ts = some st') : scan m st (a ++ b) = scan m' st' b := by
  induction a generalizing m st ts with
  | nil =>
    simp only [feedAll_nil, Option.some.injEq, Prod.mk.injEq] at h
    obtain ⟨rfl, rfl⟩ := h
    simp only [pushAll, Option.some.injEq] at h'
    subst h'; rfl
  | cons x a ih =>
    simp only [feedAll] at h
    simp only [List.cons_append, scan]
    cases hf : feed m x with
    | none => simp [hf] at h
    | some r =>
      simp only [hf, Option.bind_some] at h ⊢
      cases hr : feedAll r.2 a with
      | none => simp [hr] at h
      | some r' =>
        simp only [hr, Option.map_some, Option.some.injEq, Prod.mk.injEq] at h
        obtain ⟨rfl, rfl⟩ := h
        rw [pushAll_append] at h'
        cases hp : pushAll st r.1 with
        | none => simp [hp] at h'
        | some st1 =>
          simp only [hp, Option.bind_some] at h'
          rw [ending_none hp]
          simp only [Option.bind_some]
          exact ih hr h'

theorem scan_endobj (v : Val) (rest : Bytes) : scan .gap [.val v] (lit "endobj\n" ++ rest) = some (v, .endobj, rest) := by
  have e : lit "endobj\n" = [101, 110, 100, 111, 98, 106, 10] := by decide
  have e' : lit "endobj" = [101, 110, 100, 111, 98, 106] := by decide
  rw [e]
  have s : scan .gap [.val v] ([101, 110, 100, 111, 98, 106] ++ (10 :: rest)) =
      scan (.word [101, 110, 100, 111, 98, 106]) [.val v] (10 :: rest) :=
    scan_append (ts := []) (by decide +kernel) rfl
  have : scan .gap [.val v] ([101, 110, 100, 111, 98, 106, 10] ++ rest) =
      scan .gap [.val v] ([101, 110, 100, 111, 98, 106] ++ (10 :: rest)) := rfl
  rw [this, s]
  have hf : feed (.word [101, 110, 100, 111, 98, 106]) 10 = some ([.word (lit "endobj")], .gap) := by decide +kernel
  simp only [scan, hf, Option.bind_some]
  simp [ending]

theorem scan_stream (v : Val) (rest : Bytes) : scan .gap [.val v] (lit "stream\n" ++ rest) = some (v, .stream, rest) := by
  have e : lit "stream\n" = [115, 116, 114, 101, 97, 109, 10] := by decide
  rw [e]
  have s : scan .gap [.val v] ([115, 116, 114, 101, 97, 109] ++ (10 :: rest)) =
      scan (.word [115, 116, 114, 101, 97, 109]) [.val v] (10 :: rest) :=
    scan_append (ts := []) (by decide +kernel) rfl
  have : scan .gap [.val v] ([115, 116, 114, 101, 97, 109, 10] ++ rest) =
      scan .gap [.val v] ([115, 116, 114, 101, 97, 109] ++ (10 :: rest)) := rfl
  rw [this, s]
  have hf : feed (.word [115, 116, 114, 101, 97, 109]) 10 = some ([.word (lit "stream")], .gap) := by decide +kernel
  simp only [scan, hf, Option.bind_some]
  have he : ending [.word (lit "stream")] 10 = some .stream := by decide +kernel
  simp [he]

theorem scan_startxref (v : Val) (rest : Bytes) : scan .gap [.val v] (lit "startxref\n" ++ rest) = some (v, .startxref, rest) := by
  have e : lit "startxref\n" = [115, 116, 97, 114, 116, 120, 114, 101, 102, 10] := by decide
  rw [e]
  have s : scan .gap [.val v] ([115, 116, 97, 114, 116, 120, 114, 101, 102] ++ (10 :: rest)) =
      scan (.word [115, 116, 97, 114, 116, 120, 114, 101, 102]) [.val v] (10 :: rest) :=
    scan_append (ts := []) (by decide +kernel) rfl
  have : scan .gap [.val v] ([115, 116, 97, 114, 116, 120, 114, 101, 102, 10] ++ rest) =
      scan .gap [.val v] ([115, 116, 97, 114, 116, 120, 114, 101, 102] ++ (10 :: rest)) := rfl
  rw [this, s]
  have hf : feed (.word [115, 116, 97, 114, 116, 120, 114, 101, 102]) 10 = some ([.word (lit "startxref")], .gap) := by decide +kernel
  simp only [scan, hf, Option.bind_some]
  have he : ending [.word (lit "startxref")] 10 = some .startxref := by decide +kernel
  simp [he]

/-- An object without a stream. -/
theorem read_plain {a rest : Bytes} {ts : List Tok} {v : Val} (h : feedAll .gap a = some (ts, .gap))
    (h' : pushAll [] ts = some [.val v]) : readObject (a ++ (lit "endobj\n" ++ rest)) = some (v, none) := by
  unfold readObject
  rw [scan_append h h', scan_endobj]
  rfl

/-- An object with a stream. -/
theorem read_stream {a data eol rest : Bytes} {ts : List Tok} {v : Val} (h : feedAll .gap a = some (ts, .gap))
    (h' : pushAll [] ts = some [.val v]) (hl : v.streamLength = some data.length) (he : ∀ b ∈ eol, isWhite b = true) :
    readObject (a ++ (lit "stream\n" ++ (data ++ (eol ++ (lit "endstream\n" ++ (lit "endobj\n" ++ rest)))))) =
      some (v, some data) := by
  unfold readObject
  rw [scan_append h h', scan_stream]
  have hw : ∀ (l r : Bytes), (∀ b ∈ l, isWhite b = true) → (l ++ r).dropWhile isWhite = r.dropWhile isWhite := by
    intro l r hl
    induction l with
    | nil => rfl
    | cons x l ih => rw [List.cons_append, List.dropWhile_cons_of_pos (hl x (by simp)), ih (fun b hb => hl b (by simp [hb]))]
  have e1 : lit "endstream\n" = 101 :: lit "ndstream\n" := by decide
  have e2 : lit "endobj\n" = 101 :: lit "ndobj\n" := by decide
  have e3 : lit "endstream\n" = lit "endstream" ++ lit "\n" := by decide
  have e4 : lit "endobj\n" = lit "endobj" ++ lit "\n" := by decide
  simp only [Option.bind_some, hl]
  rw [if_pos (by simp), List.drop_left, List.take_left, hw _ _ he]
  have d1 : (lit "endstream\n" ++ (lit "endobj\n" ++ rest)).dropWhile isWhite = lit "endstream\n" ++ (lit "endobj\n" ++ rest) := by
    rw [e1]; rfl
  rw [d1, e3, List.append_assoc, dropPrefix?_append]
  have d2 : (lit "\n" ++ (lit "endobj\n" ++ rest)).dropWhile isWhite = lit "endobj\n" ++ rest := by
    rw [hw _ _ (by decide), e2]; rfl
  simp only [Option.bind_some]
  rw [d2, e4, List.append_assoc, dropPrefix?_append]
  rfl

end Verif.PdfObject
