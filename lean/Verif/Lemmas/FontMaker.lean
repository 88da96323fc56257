import Verif.Model.FontMaker
import Verif.Spec.Encoding
import Verif.Lemmas.Objects.Plain
/- Reading the encoding object of a font definition. -/
namespace Verif.FontMaker
open PdfObject Encoding
open ContentReader (isWhite isDelim isRegular number)

/-- What `diffs` writes, as values. -/
def vals (names ref : Nat → Bytes) : Nat → List Nat → List Val
  | _, [] => []
  | last, c :: cs =>
    if names c ≠ ref c then (if c ≠ last + 1 then [.num (c : ℚ)] else []) ++ .name (names c) :: vals names ref c cs
    else vals names ref last cs

/-- The codes that get a name. -/
def named (names ref : Nat → Bytes) (cs : List Nat) : List (Nat × Bytes) :=
  (cs.filter fun c => names c ≠ ref c).map fun c => (c, names c)

theorem run_slash {st : List Entry} {w b : Bytes} (hw : NameChars w) (hb : Starts b = true) :
    run st (lit "/" ++ (w ++ b)) = run (.val (.name w) :: st) b :=
  run_name (a := lit "/") (ts := []) (p := []) (by decide +kernel) rfl hw hb

theorem run_diffs {names ref : Nat → Bytes} : ∀ (cs : List Nat) (last : Nat) (st : List Entry) (b : Bytes),
    (∀ c ∈ cs, NameChars (names c)) → run st (diffs names ref last cs ++ b) = run (onStack (vals names ref last cs) ++ st) b := by
  intro cs
  induction cs with
  | nil => intro last st b _; rfl
  | cons c cs ih =>
    intro last st b hn
    have hc := hn c (by simp)
    have ih := fun last st b => ih last st b (fun x hx => hn x (by simp [hx]))
    rw [diffs, vals]
    split
    · by_cases h2 : c ≠ last + 1
      · rw [if_pos h2, if_pos h2]
        simp only [List.append_assoc]
        rw [run_dec c (by rfl), lit_space, run_slash hc (by rfl), lit_space, ih]
        simp [onStack]
      · rw [if_neg h2, if_neg h2]
        simp only [List.append_assoc, List.nil_append]
        rw [run_slash hc (by rfl), lit_space, ih]
        simp [onStack]
    · exact ih _ _ _

theorem digit_space {b : UInt8} (h : isDigit b = true) : isSpace b = false := by
  simp only [isDigit, Bool.and_eq_true, decide_eq_true_eq, UInt8.le_iff_toNat_le] at h
  simp only [isSpace, Bool.or_eq_false_iff, Bool.and_eq_false_iff, decide_eq_false_iff_not, UInt8.le_iff_toNat_le, ← UInt8.toNat_inj]
  simp at h ⊢
  omega

theorem nameChars {w : Bytes} (h : GlyphName w) : NameChars w := fun b hb => ⟨(h.2 b hb).2.2.1, (h.2 b hb).2.2.2⟩

theorem name_space {b : UInt8} (h : 33 ≤ b) : isSpace b = false := by
  simp only [UInt8.le_iff_toNat_le] at h
  simp only [isSpace, Bool.or_eq_false_iff, Bool.and_eq_false_iff, decide_eq_false_iff_not, UInt8.le_iff_toNat_le, ← UInt8.toNat_inj]
  simp at h ⊢
  omega

/-- The text begins and ends with something else than white space. -/
def Tight (t : Bytes) : Prop := (∃ a u, t = a :: u ∧ isSpace a = false) ∧ ∃ u z, t = u ++ [z] ∧ isSpace z = false

theorem trim_tight {t : Bytes} (h : Tight t) : trim (t ++ lit " ") = t := by
  obtain ⟨⟨a, u, rfl, ha⟩, u', z, hz, hz'⟩ := h
  have hs : lit " " = [32] := rfl
  unfold trim
  rw [hs, List.cons_append, List.dropWhile_cons, if_neg (by simp [ha]), ← List.cons_append, hz]
  simp [List.dropWhile_cons, hz', show isSpace 32 = true from rfl]

theorem tight_append {s t : Bytes} (hs : ∃ a u, s = a :: u ∧ isSpace a = false) (ht : ∃ u z, t = u ++ [z] ∧ isSpace z = false) :
    Tight (s ++ t) := by
  obtain ⟨a, u, rfl, ha⟩ := hs
  obtain ⟨v, z, rfl, hz⟩ := ht
  exact ⟨⟨a, u ++ (v ++ [z]), rfl, ha⟩, a :: u ++ v, z, by simp, hz⟩

/-- The text of `diffs` is empty, or ends with a name and a space. -/
theorem diffs_tight {names ref : Nat → Bytes} : ∀ (cs : List Nat) (last : Nat),
    (∀ c ∈ cs, GlyphName (names c)) → diffs names ref last cs = [] ∨
      ∃ t ts w, diffs names ref last cs = t ++ lit " " ∧ Tight t ∧ feedAll .gap t = some (ts, .name w) := by
  intro cs
  induction cs with
  | nil => intro last _; exact .inl rfl
  | cons c cs ih =>
    intro last hn
    have hg := hn c (by simp)
    have hc := nameChars hg
    have hne := hg.1
    have ih := fun last => ih last (fun x hx => hn x (by simp [hx]))
    rw [diffs]
    split
    · right
      -- the number
      have hpre : ∃ pre, (if c ≠ last + 1 then dec c ++ lit " " else []) = pre ∧
          (∃ ts, feedAll .gap pre = some (ts, .gap)) ∧ (∃ a u, pre ++ lit "/" = a :: u ∧ isSpace a = false) := by
        refine ⟨_, rfl, ?_⟩
        by_cases h2 : c ≠ last + 1
        · rw [if_pos h2]
          obtain ⟨h1, h2, _⟩ := isNum_dec c
          refine ⟨?_, ?_⟩
          · rw [feedAll_then (feedAll_reg h2 h1), feedAll_word (by rfl)]
            exact ⟨_, rfl⟩
          · cases hd : dec c with
            | nil => exact absurd hd h1
            | cons a u => exact ⟨a, _, rfl, digit_space (dec_all_digit c a (by simp [hd]))⟩
        · rw [if_neg h2]; exact ⟨⟨[], rfl⟩, 47, [], rfl, rfl⟩
      obtain ⟨pre, hp, ⟨ts, hts⟩, hbeg⟩ := hpre
      rw [hp]
      have hname : feedAll .gap (pre ++ (lit "/" ++ names c)) = some (ts, .name (names c)) := by
        rw [feedAll_then hts, feedAll_then (m' := .name []) (ts := []) (by decide +kernel), feedAll_name_reg hc]
        simp
      have hend : ∃ u z, names c = u ++ [z] ∧ isSpace z = false := by
        refine ⟨(names c).dropLast, (names c).getLast hne, (List.dropLast_append_getLast hne).symm, ?_⟩
        exact name_space (hg.2 _ (List.getLast_mem hne)).1
      rcases ih c with h | ⟨t, ts', w, h, ht, hf⟩
      · refine ⟨pre ++ (lit "/" ++ names c), ts, names c, by rw [h]; simp, ?_, hname⟩
        rw [← List.append_assoc]
        exact tight_append hbeg hend
      · refine ⟨pre ++ (lit "/" ++ names c) ++ (lit " " ++ t), ts ++ .name (names c) :: ts', w, by rw [h]; simp, ?_, ?_⟩
        · have : pre ++ (lit "/" ++ names c) ++ (lit " " ++ t) = (pre ++ lit "/") ++ (names c ++ lit " " ++ t) := by simp
          rw [this]
          refine tight_append hbeg ?_
          obtain ⟨u, z, hz, hz'⟩ := ht.2
          exact ⟨names c ++ lit " " ++ u, z, by rw [hz]; simp, hz'⟩
        · rw [feedAll_then hname, feedAll_name (by rfl), feedAll_then (m' := .gap) (ts := []) (by decide +kernel), hf]
          rfl
    · exact ih last

/-- The space at the end does not matter. -/
theorem run_trim {names ref : Nat → Bytes} {cs : List Nat} {last : Nat} {st : List Entry} {b : Bytes}
    (hn : ∀ c ∈ cs, GlyphName (names c)) (hb : Starts b = true) :
    run st (trim (diffs names ref last cs) ++ b) = run (onStack (vals names ref last cs) ++ st) b := by
  rw [← run_diffs cs last st b (fun c hc => nameChars (hn c hc))]
  rcases diffs_tight cs last hn with h | ⟨t, ts, w, h, ht, hf⟩
  · rw [h]; rfl
  · rw [h, trim_tight ht, List.append_assoc, run_name_aux hf hb, run_name_aux hf (by rfl)]
    congr 1
    funext st'
    rw [lit_space]

theorem assign_vals {names ref : Nat → Bytes} : ∀ (cs : List Nat) (last : Nat) (code : Option Nat),
    (code = some (last + 1) ∨ ∀ c ∈ cs, c = last + 1 → names c = ref c) →
    assign code (vals names ref last cs) = some (named names ref cs) := by
  intro cs
  induction cs with
  | nil => intro last code _; rfl
  | cons c cs ih =>
    intro last code h
    rw [vals]
    split
    · rename_i hc
      have hnamed : named names ref (c :: cs) = (c, names c) :: named names ref cs := by
        simp [named, hc]
      by_cases h2 : c ≠ last + 1
      · simp [if_pos h2, assign, nat_cast, ih c (some (c + 1)) (.inl rfl), hnamed]
      · have h2 : c = last + 1 := by omega
        rcases h with rfl | h
        · simp [h2, assign]
          rw [ih (last + 1) (some (last + 1 + 1)) (.inl rfl)]
          rw [h2] at hnamed
          rw [hnamed]
          exact ⟨_, rfl, rfl⟩
        · exact absurd (h c (by simp) h2) hc
    · rename_i hc
      have hc : names c = ref c := by simpa using hc
      rw [ih last code (by rcases h with h | h <;> [exact .inl h; exact .inr fun x hx => h x (by simp [hx])])]
      simp [named, hc]

theorem find_named {names ref : Nat → Bytes} {cs : List Nat} {c : Nat} (hc : c ∈ cs) (base : Bytes) (hb : base = ref c) :
    (match (named names ref cs).reverse.find? fun p => p.1 = c with | some p => p.2 | none => base) = names c := by
  split
  · rename_i p hp
    have h1 := List.mem_of_find?_eq_some hp
    have h2 := List.find?_some hp
    simp [named] at h1 h2
    grind
  · rename_i hp
    rw [List.find?_eq_none] at hp
    by_contra hne
    refine hp (c, names c) ?_ (by simp)
    simp [named]
    exact ⟨hc, fun h => hne (by rw [hb, h])⟩

/-- The object as a value. -/
def encVal (l : List Val) : Val :=
  .dict [(lit "Type", .name (lit "Encoding")), (lit "BaseEncoding", .name (lit "WinAnsiEncoding")), (lit "Differences", .arr l)]

theorem encoding_value {names ref : Nat → Bytes} (hn : ∀ c, c < 256 → GlyphName (names c)) :
    Reads (encodingObj (makeFontEncoding names ref)) (encVal (vals names ref 0 (List.range 256))) := by
  unfold Reads encodingObj makeFontEncoding
  have hl : feedAll .gap (lit "<</Type /Encoding /BaseEncoding /WinAnsiEncoding /Differences [") =
    some ([.dictOpen, .name (lit "Type"), .name (lit "Encoding"), .name (lit "BaseEncoding"), .name (lit "WinAnsiEncoding"),
      .name (lit "Differences"), .arrOpen], .gap) := by decide +kernel
  have he : feedAll .gap (lit "]>>\n") = some ([.arrClose, .dictClose], .gap) := by decide +kernel
  rw [run_then hl rfl, run_trim (fun c hc => hn c (by simpa using hc)) (by decide +kernel), run_end he]
  generalize vals names ref 0 (List.range 256) = l
  simp only [pushAll, push, closeArr_onStack, List.append_nil, closeArr_open, Option.bind_some, closeDict_val]
  rw [closeDict_entries (ps := [(lit "Type", .name (lit "Encoding")), (lit "BaseEncoding", .name (lit "WinAnsiEncoding")),
    (lit "Differences", .arr l)]) (l := [Val.name (lit "Type"), .name (lit "Encoding"), .name (lit "BaseEncoding"),
      .name (lit "WinAnsiEncoding"), .name (lit "Differences"), .arr l]) rfl (by simp; decide +kernel)]
  rfl

theorem table_value (ref : Nat → Bytes) (l : List Val) : table ref (encVal l) =
    (assign none l).map fun as c => match as.reverse.find? fun p => p.1 = c with
        | some p => p.2
        | none => ref c := by
  have h1 : (encVal l).get (lit "Type") = some (.name (lit "Encoding")) := rfl
  have h2 : (encVal l).get (lit "BaseEncoding") = some (.name (lit "WinAnsiEncoding")) := rfl
  have h3 : (encVal l).get (lit "Differences") = some (.arr l) := rfl
  unfold table
  rw [h1, h2, h3]
  exact if_pos ⟨rfl, rfl⟩

end Verif.FontMaker
