import Verif.Lemmas.Objects.Push
/- Reading objects: pieces of text one after the other. -/
namespace Verif.PdfObject
open ContentReader (isWhite isDelim isRegular number)
open Content (IsNum fixed)
open ObjectValue (decimal)
open Objects (ref refList linkList)

/-- Tokens and objects of a text that ends between tokens. -/
def run (st : List Entry) (a : Bytes) : Option (List Entry) :=
  (feedAll .gap a).bind fun r => if r.2 = .gap then pushAll st r.1 else none

/-- Reading a text gives one value. -/
def Reads (a : Bytes) (v : Val) : Prop := run [] a = some [.val v]

theorem run_iff {st st' : List Entry} {a : Bytes} :
    run st a = some st' ↔ ∃ ts, feedAll .gap a = some (ts, .gap) ∧ pushAll st ts = some st' := by
  unfold run
  cases feedAll .gap a with
  | none => simp
  | some r =>
    obtain ⟨ts, m⟩ := r
    by_cases hm : m = .gap
    · subst hm; simp
    · simp [hm]

theorem run_then {st st1 : List Entry} {a b : Bytes} {ts : List Tok} (h : feedAll .gap a = some (ts, .gap))
    (h' : pushAll st ts = some st1) : run st (a ++ b) = run st1 b := by
  unfold run
  rw [feedAll_then h]
  cases feedAll .gap b with
  | none => rfl
  | some r =>
    simp only [Option.map_some, Option.bind_some]
    by_cases hm : r.2 = .gap
    · rw [if_pos hm, if_pos hm, pushAll_append, h']; rfl
    · rw [if_neg hm, if_neg hm]

theorem run_end {st : List Entry} {a : Bytes} {ts : List Tok} (h : feedAll .gap a = some (ts, .gap)) : run st a = pushAll st ts := by
  unfold run; rw [h]; rfl

theorem run_gap {st : List Entry} {a b : Bytes} {ts : List Tok} (h : feedAll .gap a = some (ts, .gap)) :
    run st (a ++ b) = (pushAll st ts).bind fun st => run st b := by
  unfold run
  rw [feedAll_then h]
  cases feedAll .gap b with
  | none => simp
  | some r =>
    simp only [Option.map_some, Option.bind_some]
    by_cases hm : r.2 = .gap
    · simp only [if_pos hm]; rw [pushAll_append]
    · simp [if_neg hm]

theorem run_append {st st1 : List Entry} {a : Bytes} (h : run st a = some st1) (b : Bytes) : run st (a ++ b) = run st1 b := by
  obtain ⟨ts, h1, h2⟩ := run_iff.1 h
  exact run_then h1 h2

@[simp] theorem run_nil (st : List Entry) : run st [] = some st := rfl

theorem read_plain' {a rest : Bytes} {v : Val} (h : Reads a v) : readObject (a ++ (lit "endobj\n" ++ rest)) = some (v, none) := by
  obtain ⟨ts, h1, h2⟩ := run_iff.1 h
  exact read_plain h1 h2

theorem read_stream' {a data eol rest : Bytes} {v : Val} (h : Reads a v) (hl : v.streamLength = some data.length)
    (he : ∀ b ∈ eol, isWhite b = true) :
    readObject (a ++ (lit "stream\n" ++ (data ++ (eol ++ (lit "endstream\n" ++ (lit "endobj\n" ++ rest)))))) =
      some (v, some data) := by
  obtain ⟨ts, h1, h2⟩ := run_iff.1 h
  exact read_stream h1 h2 hl he

/-! ### Words, names, strings -/

theorem starts_append {a b : Bytes} (h : Starts a = true) : Starts (a ++ b) = true := by
  cases a with
  | nil => simp [Starts] at h
  | cons x a => exact h

theorem run_word_aux {st : List Entry} {w a b : Bytes} {ts : List Tok} (hw : feedAll .gap a = some (ts, .word w)) (hb : Starts b = true) :
    run st (a ++ b) = (pushAll st (ts ++ [.word w])).bind fun st => run st b := by
  unfold run
  rw [feedAll_then hw, feedAll_word hb]
  cases feedAll .gap b with
  | none => simp
  | some r =>
    simp only [Option.map_some, Option.bind_some]
    by_cases hm : r.2 = .gap
    · simp only [if_pos hm]
      rw [show ts ++ Tok.word w :: r.1 = (ts ++ [.word w]) ++ r.1 from by simp, pushAll_append]
    · simp [if_neg hm]

theorem run_name_aux {st : List Entry} {w a b : Bytes} {ts : List Tok} (hw : feedAll .gap a = some (ts, .name w)) (hb : Starts b = true) :
    run st (a ++ b) = (pushAll st (ts ++ [.name w])).bind fun st => run st b := by
  unfold run
  rw [feedAll_then hw, feedAll_name hb]
  cases feedAll .gap b with
  | none => simp
  | some r =>
    simp only [Option.map_some, Option.bind_some]
    by_cases hm : r.2 = .gap
    · simp only [if_pos hm]
      rw [show ts ++ Tok.name w :: r.1 = (ts ++ [.name w]) ++ r.1 from by simp, pushAll_append]
    · simp [if_neg hm]

theorem run_num {st : List Entry} {w b : Bytes} {q : ℚ} (h : IsNum w q) (hb : Starts b = true) :
    run st (w ++ b) = run (.val (.num q) :: st) b := by
  rw [run_word_aux (feedAll_reg h.2.1 h.1) hb]
  simp [push_number h.2.2]

/-- A name of variable text after a literal that ends with its slash. -/
theorem run_name {st st1 : List Entry} {a w b : Bytes} {ts : List Tok} {p : Bytes} (ha : feedAll .gap a = some (ts, .name p))
    (hp : pushAll st ts = some st1) (hw : NameChars w) (hb : Starts b = true) :
    run st (a ++ (w ++ b)) = run (.val (.name (p ++ w)) :: st1) b := by
  have : feedAll .gap (a ++ w) = some (ts, .name (p ++ w)) := by
    rw [feedAll_then ha, feedAll_name_reg hw]; simp
  rw [← List.append_assoc, run_name_aux this hb, pushAll_append, hp]
  simp

/-- A literal string of variable text after a literal that ends with its parenthesis. -/
theorem run_str {st st1 : List Entry} {a s b : Bytes} {ts : List Tok} (ha : feedAll .gap a = some (ts, .str .norm 0 []))
    (hp : pushAll st ts = some st1) : run st (a ++ (Escape.escape s ++ 41 :: b)) = run (.val (.str s) :: st1) b := by
  unfold run
  rw [feedAll_then ha, feedAll_escape]
  cases feedAll .gap b with
  | none => simp
  | some r =>
    simp only [Option.map_some, Option.bind_some]
    by_cases hm : r.2 = .gap
    · simp only [if_pos hm]
      rw [show ts ++ Tok.str s :: r.1 = (ts ++ [.str s]) ++ r.1 from by simp, pushAll_append, pushAll_append, hp]
      simp
    · simp [if_neg hm]

/-- A hexadecimal string. -/
theorem run_hex {st st1 : List Entry} {a s b p out : Bytes} {ts : List Tok} (ha : feedAll .gap a = some (ts, .hex p))
    (hp : pushAll st ts = some st1) (hs : ∀ b ∈ s, (hexVal b).isSome = true ∧ b ≠ 62) (h : hexDecode (p ++ s) = some out) :
    run st (a ++ (s ++ 62 :: b)) = run (.val (.str out) :: st1) b := by
  unfold run
  rw [feedAll_then ha, feedAll_hex hs h]
  cases feedAll .gap b with
  | none => simp
  | some r =>
    simp only [Option.map_some, Option.bind_some]
    by_cases hm : r.2 = .gap
    · simp only [if_pos hm]
      rw [show ts ++ Tok.str out :: r.1 = (ts ++ [.str out]) ++ r.1 from by simp, pushAll_append, pushAll_append, hp]
      simp
    · simp [if_neg hm]

theorem run_dec {st : List Entry} {b : Bytes} (n : Nat) (hb : Starts b = true) :
    run st (dec n ++ b) = run (.val (.num (n : ℚ)) :: st) b := run_num (isNum_dec n) hb
theorem run_decInt {st : List Entry} {b : Bytes} (n : Int) (hb : Starts b = true) :
    run st (decInt n ++ b) = run (.val (.num (n : ℚ)) :: st) b := run_num (isNum_decInt n) hb
theorem run_fixed2 {st : List Entry} {b : Bytes} (q : ℚ) (hb : Starts b = true) :
    run st (fixed 2 q ++ b) = run (.val (.num (decimal 2 q)) :: st) b := run_num (isNum_fixedD (by decide) q) hb
theorem run_fixed3 {st : List Entry} {b : Bytes} (q : ℚ) (hb : Starts b = true) :
    run st (fixed 3 q ++ b) = run (.val (.num (decimal 3 q)) :: st) b := run_num (isNum_fixedD (by decide) q) hb
theorem run_fixed6 {st : List Entry} {b : Bytes} (q : ℚ) (hb : Starts b = true) :
    run st (fixed 6 q ++ b) = run (.val (.num (decimal 6 q)) :: st) b := run_num (isNum_fixedD (by decide) q) hb

theorem push_zero (st : List Entry) : push st (.word (lit "0")) = some (.val (.num 0) :: st) :=
  push_number (by decide +kernel) st

/-- The tokens of a reference. -/
theorem lex_ref (n : Nat) : feedAll .gap (ref n) = some ([.word (dec n), .word (lit "0")], .word (lit "R")) := by
  have h : feedAll .gap (lit " 0 R") = some ([.word (lit "0")], .word (lit "R")) := by decide +kernel
  have hs : Starts (lit " 0 R") = true := by decide +kernel
  rw [ref, feedAll_then (lex_dec n), feedAll_word hs, h]
  rfl

theorem run_ref {st : List Entry} {b : Bytes} (n : Nat) (hb : Starts b = true) :
    run st (ref n ++ b) = run (.val (.ref n) :: st) b := by
  rw [run_word_aux (lex_ref n) hb]
  simp [push_zero]

/-! ### Lists -/

/-- Values on the stack, the last first. -/
def onStack (l : List Val) : List Entry := (l.map Entry.val).reverse

theorem onStack_append (a b : List Val) : onStack (a ++ b) = onStack b ++ onStack a := by simp [onStack]

theorem closeArr_onStack (acc l : List Val) (st : List Entry) : closeArr acc (onStack l ++ st) = closeArr (l ++ acc) st := by
  induction l using List.reverseRecOn generalizing acc with
  | nil => rfl
  | append_singleton l v ih =>
    have : onStack (l ++ [v]) ++ st = .val v :: (onStack l ++ st) := by simp [onStack]
    rw [this, closeArr_val, ih]
    simp

theorem closeDict_onStack (acc l : List Val) (st : List Entry) : closeDict acc (onStack l ++ st) = closeDict (l ++ acc) st := by
  induction l using List.reverseRecOn generalizing acc with
  | nil => rfl
  | append_singleton l v ih =>
    have : onStack (l ++ [v]) ++ st = .val v :: (onStack l ++ st) := by simp [onStack]
    rw [this, closeDict_val, ih]
    simp

theorem run_flatMap {α : Type} (f : α → Bytes) (g : α → List Val) (l : List α)
    (h : ∀ x ∈ l, ∀ st, run st (f x) = some (onStack (g x) ++ st)) (st : List Entry) :
    run st (l.flatMap f) = some (onStack (l.flatMap g) ++ st) := by
  induction l generalizing st with
  | nil => rfl
  | cons x l ih =>
    rw [List.flatMap_cons, run_append (h x (by simp) st), ih (fun y hy => h y (by simp [hy])), List.flatMap_cons, onStack_append,
      List.append_assoc]

theorem lit_space (st : List Entry) (b : Bytes) : run st (lit " " ++ b) = run st b :=
  run_then (ts := []) (by decide +kernel) rfl

theorem flatMap_single {α β : Type} (f : α → β) (l : List α) : (l.flatMap fun n => [f n]) = l.map f := by
  induction l with
  | nil => rfl
  | cons a l ih => simp [ih]

theorem run_refList {st : List Entry} {b : Bytes} (l : List Nat) :
    run st (refList l ++ b) = run (onStack (l.map .ref) ++ st) b := by
  refine run_append ?_ b
  have := run_flatMap (fun n => lit " " ++ (ref n ++ lit " ")) (fun n => [Val.ref n]) l (by
    intro n _ st
    rw [lit_space, run_ref n (by decide), show lit " " = lit " " ++ [] from rfl, lit_space]
    rfl) st
  rw [flatMap_single] at this
  exact this

theorem run_linkList {st : List Entry} {b : Bytes} (l : List Nat) :
    run st (linkList l ++ b) = run (onStack (l.map .ref) ++ st) b := by
  refine run_append ?_ b
  have := run_flatMap (fun n => ref n ++ lit " ") (fun n => [Val.ref n]) l (by
    intro n _ st
    rw [run_ref n (by decide), show lit " " = lit " " ++ [] from rfl, lit_space]
    rfl) st
  rw [flatMap_single] at this
  exact this

/-! ### Dictionaries -/

/-- Keys and values one after the other. -/
def entries (ps : List (Bytes × Val)) : List Val := ps.flatMap fun p => [.name p.1, p.2]

theorem entries_append (a b : List (Bytes × Val)) : entries (a ++ b) = entries a ++ entries b := by simp [entries]

theorem pairs_entries (ps : List (Bytes × Val)) : pairs (entries ps) = some ps := by
  induction ps with
  | nil => rfl
  | cons p ps ih =>
    have : entries (p :: ps) = .name p.1 :: p.2 :: entries ps := rfl
    rw [this, pairs_cons, ih]; rfl

/-- A dictionary is complete. -/
theorem closeDict_entries {l : List Val} {ps : List (Bytes × Val)} (h : l = entries ps) (hn : (ps.map (·.1)).Nodup) (st : List Entry) :
    closeDict l (.dictOpen :: st) = some (.val (.dict ps) :: st) :=
  closeDict_open (by rw [h, pairs_entries]) hn st

/-- The outermost dictionary is complete. -/
theorem close_top {l : List Val} {v : Val} {ps : List (Bytes × Val)} (hv : v = .dict ps) (h : l = entries ps)
    (hn : (ps.map (·.1)).Nodup) : ((closeDict l [.dictOpen]).bind fun st => some st) = some [.val v] := by
  rw [closeDict_entries h hn, hv]; rfl

/-- Names of distinct texts. -/
theorem keys_nodup {ps : List (Bytes × Val)} (ks : List String) (h : ps.map (·.1) = ks.map lit) (hn : (ks.map lit).Nodup) :
    (ps.map (·.1)).Nodup := h ▸ hn

end Verif.PdfObject
