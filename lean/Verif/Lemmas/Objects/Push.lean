import Verif.Lemmas.Objects.Lex
import Verif.Spec.ObjectValue
import Verif.Lemmas.Escape
import Verif.Lemmas.Info
/- Reading objects: words, strings and names of variable text. -/
namespace Verif.PdfObject
open ContentReader (isWhite isDelim isRegular number)
open Content (IsNum fixed roundHalfEven)
open ObjectValue (decimal)

theorem push_number {w : Bytes} {q : ℚ} (h : number w = some q) (st : List Entry) :
    push st (.word w) = some (.val (.num q) :: st) := by
  simp [push, h]

@[simp] theorem pushAll_nil (st : List Entry) : pushAll st [] = some st := rfl
@[simp] theorem pushAll_cons (st : List Entry) (t : Tok) (ts : List Tok) :
    pushAll st (t :: ts) = (push st t).bind fun st => pushAll st ts := rfl
@[simp] theorem push_name (st : List Entry) (b : Bytes) : push st (.name b) = some (.val (.name b) :: st) := rfl
@[simp] theorem push_str (st : List Entry) (b : Bytes) : push st (.str b) = some (.val (.str b) :: st) := rfl
@[simp] theorem push_arrOpen (st : List Entry) : push st .arrOpen = some (.arrOpen :: st) := rfl
@[simp] theorem push_dictOpen (st : List Entry) : push st .dictOpen = some (.dictOpen :: st) := rfl
@[simp] theorem push_arrClose (st : List Entry) : push st .arrClose = closeArr [] st := rfl
@[simp] theorem push_dictClose (st : List Entry) : push st .dictClose = closeDict [] st := rfl
@[simp] theorem closeArr_val (l : List Val) (v : Val) (st : List Entry) : closeArr l (.val v :: st) = closeArr (v :: l) st := rfl
@[simp] theorem closeArr_open (l : List Val) (st : List Entry) : closeArr l (.arrOpen :: st) = some (.val (.arr l) :: st) := rfl
@[simp] theorem closeDict_val (l : List Val) (v : Val) (st : List Entry) : closeDict l (.val v :: st) = closeDict (v :: l) st := rfl

theorem closeDict_open {l : List Val} {ps : List (Bytes × Val)} (h : pairs l = some ps) (hn : (ps.map (·.1)).Nodup)
    (st : List Entry) : closeDict l (.dictOpen :: st) = some (.val (.dict ps) :: st) := by
  simp [closeDict, h, hn]

@[simp] theorem pairs_nil : pairs [] = some [] := rfl
@[simp] theorem pairs_cons (k : Bytes) (v : Val) (l : List Val) :
    pairs (.name k :: v :: l) = (pairs l).map ((k, v) :: ·) := rfl

/-! ### References -/

theorem nat_cast (n : Nat) : ContentReader.nat (n : ℚ) = some n := by
  simp [ContentReader.nat]

@[simp] theorem push_R (st : List Entry) (n : Nat) :
    push (.val (.num 0) :: .val (.num (n : ℚ)) :: st) (.word (lit "R")) = some (.val (.ref n) :: st) := by
  have h : number (lit "R") = none := by decide +kernel
  simp [push, h, keyword, closeRef, nat_cast]

@[simp] theorem push_R2 (st : List Entry) :
    push (.val (.num 0) :: .val (.num 2) :: st) (.word (lit "R")) = some (.val (.ref 2) :: st) := push_R st 2

@[simp] theorem push_null (st : List Entry) : push st (.word (lit "null")) = some (.val .null :: st) := by
  have h : number (lit "null") = none := by decide +kernel
  simp only [push, h, keyword]
  rw [if_neg (by decide)]
  simp

/-! ### Numbers -/

theorem isNum_dec (n : Nat) : IsNum (dec n) n := by
  refine ⟨dec_ne_nil n, fun b hb => Content.digit_regular (dec_all_digit n b hb), ?_⟩
  have hm := Content.magnitude_int n
  cases hd : dec n with
  | nil => exact absurd hd (dec_ne_nil n)
  | cons b r =>
    have hb : isDigit b = true := dec_all_digit n b (by simp [hd])
    have := Content.isNum_signed (neg := False) (r := r) hb (by
      intro x hx; exact Content.digit_regular (dec_all_digit n x (by rw [hd]; exact hx))) (by rw [← hd]; exact hm)
    simpa using this.2.2

theorem isNum_decInt (z : Int) : IsNum (decInt z) z := by
  cases z with
  | ofNat n => simpa [decInt] using isNum_dec n
  | negSucc n =>
    have h := isNum_dec (n + 1)
    cases hd : dec (n + 1) with
    | nil => exact absurd hd (dec_ne_nil _)
    | cons b r =>
      have hb : isDigit b = true := dec_all_digit (n + 1) b (by simp [hd])
      have := Content.isNum_signed (neg := True) (r := r) hb (by
        intro x hx; exact Content.digit_regular (dec_all_digit (n + 1) x (by rw [hd]; exact hx)))
        (by rw [← hd]; exact Content.magnitude_int (n + 1))
      simp only [if_true] at this
      have e : ((Int.negSucc n : Int) : ℚ) = -((n + 1 : Nat) : ℚ) := by
        rw [Int.negSucc_eq]; push_cast; ring
      rw [e]
      simpa [decInt, hd] using this

theorem roundHalfEven_decimal (x : ℚ) (hx : 0 ≤ x) :
    (roundHalfEven x : ℚ) = if x - ⌊x⌋ < 1 / 2 ∨ (x - ⌊x⌋ = 1 / 2 ∧ ⌊x⌋ % 2 = 0) then (⌊x⌋ : ℚ) else (⌊x⌋ : ℚ) + 1 := by
  have h0 : (0 : Int) ≤ ⌊x⌋ := Int.floor_nonneg.2 hx
  have hz : ((⌊x⌋.toNat : Nat) : Int) = ⌊x⌋ := Int.toNat_of_nonneg h0
  have hc : ((⌊x⌋.toNat : Nat) : ℚ) = (⌊x⌋ : ℚ) := by
    exact_mod_cast congrArg (fun z : Int => (z : ℚ)) hz
  have hm : ⌊x⌋.toNat % 2 = 0 ↔ ⌊x⌋ % 2 = 0 := by omega
  unfold roundHalfEven
  dsimp only
  rw [hc]
  by_cases h1 : x - ⌊x⌋ < 1 / 2
  · rw [if_pos h1, if_pos (Or.inl h1), hc]
  · rw [if_neg h1]
    by_cases h2 : 1 / 2 < x - ⌊x⌋
    · rw [if_pos h2, if_neg (by rintro (h | ⟨h, _⟩); exacts [h1 h, by linarith])]
      push_cast; rw [hc]
    · rw [if_neg h2]
      have h3 : x - ⌊x⌋ = 1 / 2 := le_antisymm (not_lt.1 h2) (not_lt.1 h1)
      by_cases h4 : ⌊x⌋ % 2 = 0
      · rw [if_pos (hm.2 h4), if_pos (Or.inr ⟨h3, h4⟩), hc]
      · rw [if_neg (fun h => h4 (hm.1 h)), if_neg (by rintro (h | ⟨_, h⟩); exacts [h1 h, h4 h])]
        push_cast; rw [hc]

theorem isNum_fixedD {k : Nat} (hk : 0 < k) (q : ℚ) : IsNum (fixed k q) (decimal k q) := by
  have h := Content.isNum_fixed' hk q
  have e := roundHalfEven_decimal (|q| * 10 ^ k) (by positivity)
  have : decimal k q = (if q < 0 then -((roundHalfEven (|q| * 10 ^ k) : ℚ) / 10 ^ k)
      else (roundHalfEven (|q| * 10 ^ k) : ℚ) / 10 ^ k) := by
    unfold decimal
    dsimp only
    rw [e]
    by_cases hq : q < 0
    · simp only [hq, if_true]; ring
    · simp only [hq, if_false]
  rw [this]; exact h

section
variable (st : List Entry) (v : Bytes)

@[simp] theorem lex_dec (n : Nat) : feedAll .gap (dec n) = some ([], .word (dec n)) :=
  feedAll_reg (isNum_dec n).2.1 (isNum_dec n).1
@[simp] theorem push_dec (n : Nat) : push st (.word (dec n)) = some (.val (.num (n : ℚ)) :: st) :=
  push_number (isNum_dec n).2.2 st
@[simp] theorem lex_decInt (n : Int) : feedAll .gap (decInt n) = some ([], .word (decInt n)) :=
  feedAll_reg (isNum_decInt n).2.1 (isNum_decInt n).1
@[simp] theorem push_decInt (n : Int) : push st (.word (decInt n)) = some (.val (.num (n : ℚ)) :: st) :=
  push_number (isNum_decInt n).2.2 st
@[simp] theorem lex_fixed2 (q : ℚ) : feedAll .gap (fixed 2 q) = some ([], .word (fixed 2 q)) :=
  feedAll_reg (isNum_fixedD (by decide) q).2.1 (isNum_fixedD (by decide) q).1
@[simp] theorem push_fixed2 (q : ℚ) : push st (.word (fixed 2 q)) = some (.val (.num (decimal 2 q)) :: st) :=
  push_number (isNum_fixedD (by decide) q).2.2 st
@[simp] theorem lex_fixed3 (q : ℚ) : feedAll .gap (fixed 3 q) = some ([], .word (fixed 3 q)) :=
  feedAll_reg (isNum_fixedD (by decide) q).2.1 (isNum_fixedD (by decide) q).1
@[simp] theorem push_fixed3 (q : ℚ) : push st (.word (fixed 3 q)) = some (.val (.num (decimal 3 q)) :: st) :=
  push_number (isNum_fixedD (by decide) q).2.2 st
@[simp] theorem lex_fixed6 (q : ℚ) : feedAll .gap (fixed 6 q) = some ([], .word (fixed 6 q)) :=
  feedAll_reg (isNum_fixedD (by decide) q).2.1 (isNum_fixedD (by decide) q).1
@[simp] theorem push_fixed6 (q : ℚ) : push st (.word (fixed 6 q)) = some (.val (.num (decimal 6 q)) :: st) :=
  push_number (isNum_fixedD (by decide) q).2.2 st

theorem digit_name {b : UInt8} (h : isDigit b = true) : isRegular b = true ∧ b ≠ 35 :=
  ⟨Content.digit_regular h, by rintro rfl; revert h; decide⟩

@[simp] theorem lex_name_dec (n : Nat) : feedAll (.name v) (dec n) = some ([], .name (v ++ dec n)) :=
  feedAll_name_reg fun b hb => digit_name (dec_all_digit n b hb)

end

/-! ### Strings -/

/-- Reading a literal string. -/
theorem feedAll_str {st : LitString.St} {depth : Nat} {s out : Bytes} {a rest : Bytes}
    (h : LitString.read st depth a = some (out, rest)) :
    feedAll (.str st depth s) a = (feedAll .gap rest).map fun r => (.str (s ++ out) :: r.1, r.2) := by
  induction a generalizing st depth s out with
  | nil => simp [LitString.read] at h
  | cons b a ih =>
    simp only [LitString.read] at h
    simp only [feedAll, feed]
    cases ha : LitString.act st depth b with
    | finish o =>
      simp only [ha, Option.some.injEq, Prod.mk.injEq] at h
      obtain ⟨rfl, rfl⟩ := h
      simp only [Option.bind_some]
      cases feedAll .gap a <;> rfl
    | go o st' d' =>
      simp only [ha] at h
      cases hr : LitString.read st' d' a with
      | none => simp [hr] at h
      | some p =>
        simp only [hr, Option.map_some, Option.some.injEq, Prod.mk.injEq] at h
        obtain ⟨rfl, h2⟩ := h
        have := ih (st := st') (depth := d') (s := s ++ o) (out := p.1) (by rw [hr, ← h2])
        simp only [Option.bind_some, this]
        cases feedAll .gap rest <;> simp

theorem feedAll_escape (s rest : Bytes) : feedAll (.str .norm 0 []) (Escape.escape s ++ 41 :: rest) =
    (feedAll .gap rest).map fun r => (.str s :: r.1, r.2) := by
  have := feedAll_str (s := []) (Escape.read_escape s rest)
  simpa using this

/-- Hexadecimal digits. -/
theorem feedAll_hex {p s out : Bytes} (hs : ∀ b ∈ s, (hexVal b).isSome = true ∧ b ≠ 62) (h : hexDecode (p ++ s) = some out)
    (rest : Bytes) : feedAll (.hex p) (s ++ 62 :: rest) = (feedAll .gap rest).map fun r => (.str out :: r.1, r.2) := by
  induction s generalizing p with
  | nil =>
    simp only [List.append_nil] at h
    simp only [List.nil_append, feedAll, feed, if_true, h, Option.map_some, Option.bind_some]
    cases feedAll .gap rest <;> rfl
  | cons b s ih =>
    obtain ⟨h1, h2⟩ := hs b (by simp)
    simp only [List.cons_append, feedAll, feed, if_neg h2, h1, if_true, Option.bind_some]
    rw [ih (fun c hc => hs c (by simp [hc])) (by simpa using h)]
    cases feedAll .gap rest <;> simp

end Verif.PdfObject
