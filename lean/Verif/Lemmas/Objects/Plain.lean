import Verif.Lemmas.Objects.Literals
/- Reading the objects without a stream. -/
set_option maxRecDepth 10000
namespace Verif.PdfObject
open Doc Objects ObjectValue
open Content (fixed)

/-- The entries read are those of the specification. -/
macro "same" : tactic => `(tactic| simp [entries, N, ObjectValue.nat, int, rnd, ObjectValue.refs, box, opt])

/-- The keys are distinct. -/
macro "keys" : tactic => `(tactic| (first | decide +kernel | (simp only [opt, List.map_cons, List.map_nil, List.append_nil, List.cons_append, List.nil_append, Option.isSome_some, if_true, List.head?_cons, List.head?_nil]; decide +kernel)))

theorem D_cons (k : String) (v : Val) (l : List (String × Val)) : D ((k, v) :: l) = .dict ((lit k, v) :: l.map fun p => (lit p.1, p.2)) := rfl

theorem catalog_reads (e : Env) (d : Doc) (i : Nat) (o : Option Nat) : Reads (catalog o) (objVal e d i (.catalog o)) := by
  cases o
  all_goals
    unfold Reads catalog
    run_simp
  · exact close_top rfl (by same) (by keys)
  · exact close_top rfl (by same) (by keys)

theorem pages_reads (e : Env) (d : Doc) (i : Nat) (kids : List Nat) (count : Nat) :
    Reads (pages e kids count) (objVal e d i (.pages kids count)) := by
  unfold Reads pages
  run_simp
  exact close_top rfl (by same) (by keys)

theorem outlines_reads (e : Env) (d : Doc) (i : Nat) (f l : Option Nat) (c : Nat) :
    Reads (outlines f l c) (objVal e d i (.outlines f l c)) := by
  cases f <;> cases l
  all_goals
    unfold Reads outlines
    run_simp
    exact close_top rfl (by same) (by keys)

theorem softMask_reads (e : Env) (d : Doc) (i g : Nat) : Reads (softMask g) (objVal e d i (.softMask g)) := by
  unfold Reads softMask
  run_simp
  exact close_top rfl (by same) (by keys)

theorem page_reads (e : Env) (d : Doc) (i : Nat) (cs ls : List Nat) (r : Nat) (hc : cs.length ≤ 1) :
    Reads (page e i cs ls r) (objVal e d i (.page cs ls r)) := by
  have hcs : cs = [] ∨ ∃ c, cs = [c] := by
    match cs, hc with
    | [], _ => exact Or.inl rfl
    | [c], _ => exact Or.inr ⟨c, rfl⟩
  unfold Reads page
  by_cases hl : ls = []
  · cases hm : e.pageSize i <;> cases ht : e.trimBox i <;> rcases hcs with rfl | ⟨c, rfl⟩
    all_goals
      simp only [annots, contents, mediaBox, trim, hl, if_true, reduceCtorEq, if_false, objVal, hm, ht]
      run_simp
      exact close_top rfl (by same) (by keys)
  · cases hm : e.pageSize i <;> cases ht : e.trimBox i <;> rcases hcs with rfl | ⟨c, rfl⟩
    all_goals
      simp only [annots, contents, mediaBox, trim, hl, if_true, reduceCtorEq, if_false, objVal, hm, ht]
      run_simp
      exact close_top rfl (by same) (by keys)

theorem title_hex (s : List Nat) (h : ∀ r ∈ s, r < 65536) :
    (∀ b ∈ Info.encodeUtf8 s, (hexVal b).isSome = true ∧ b ≠ 62) ∧ hexDecode (lit "FEFF" ++ Info.encodeUtf8 s) = some (utf16 s) := by
  refine ⟨?_, ?_⟩
  · intro b hb
    refine ⟨?_, by simpa using Info.encode_no_gt s h b hb⟩
    simp only [Info.encodeUtf8, List.mem_flatMap] at hb
    obtain ⟨r, hr, hb⟩ := hb
    rw [padL_hexUp (h r hr)] at hb
    have hd : ∀ k < 16, (hexVal (hexDigit k)).isSome = true := by decide
    simp only [List.mem_cons, List.not_mem_nil, or_false] at hb
    have := h r hr
    rcases hb with rfl | rfl | rfl | rfl <;> exact hd _ (by omega)
  · have e : lit "FEFF" = padL 4 (hexUp 0xFEFF) := by decide
    rw [e, hexDecode_padL (by decide), Info.hexDecode_encode s h]
    have e1 : UInt8.ofNat (0xFEFF / 256) = 0xFE := by decide
    have e2 : UInt8.ofNat (0xFEFF % 256) = 0xFF := by decide
    rw [e1, e2]
    simp only [Option.map_some, utf16]
    have : ∀ r : Nat, UInt8.ofNat (r % 256) = UInt8.ofNat r := by
      intro r; apply UInt8.toNat_inj.1; simp
    simp only [this]

theorem run_title {st : List Entry} {b : Bytes} (s : List Nat) (h : ∀ r ∈ s, r < 65536) :
    run st (lit "  /Title <FEFF" ++ (Info.encodeUtf8 s ++ (lit ">\n" ++ b))) =
      run (.val (.str (utf16 s)) :: .val (.name (lit "Title")) :: st) (lit "\n" ++ b) :=
  run_hex lex_36 (by push_lit) (title_hex s h).1 (title_hex s h).2

theorem outline_reads (e : Env) (d : Doc) (i t de p : Nat) (pr ne : Option Nat) (h : ∀ r ∈ e.title t, r < 65536) :
    Reads (outline e i t de p pr ne) (objVal e d i (.outline t de p pr ne)) := by
  cases pr <;> cases ne
  all_goals
    unfold Reads outline
    run_simp
    rw [run_title _ h]
    run_simp
    exact close_top rfl (by same) (by keys)

/-- A family name as a PDF name. -/
theorem subsetName_chars {b : Bytes} (h : FamilyOK b) : NameChars (subsetName b) := by
  intro c hc
  simp only [subsetName, Escape.replaceByte, List.mem_flatMap] at hc
  obtain ⟨x, ⟨y, hy, hx⟩, hc⟩ := hc
  have hp : ContentReader.isRegular 43 = true ∧ (43 : UInt8) ≠ 35 := by decide
  have h47 : ContentReader.isRegular 47 = false := by decide
  by_cases h1 : y = 32
  · simp only [h1, if_true, List.mem_singleton] at hx
    subst hx
    simp only [show ¬ (43 : UInt8) = 47 by decide, if_false, List.mem_singleton] at hc
    subst hc; exact hp
  · simp only [h1, if_false, List.mem_singleton] at hx
    subst hx
    by_cases h2 : x = 47
    · simp only [h2, if_true, List.mem_singleton] at hc
      subst hc; exact hp
    · simp only [h2, if_false, List.mem_singleton] at hc
      subst hc
      obtain ⟨h3, h4⟩ := h c hy
      exact ⟨by rcases h3 with h | h | h; exacts [h, absurd h h1, absurd h h2], h4⟩

theorem font_reads (e : Env) (d : Doc) (i f a b cid uni : Nat) (h : FamilyOK (e.family f)) :
    Reads (font e f cid uni) (objVal e d i (.font f a b cid uni)) := by
  unfold Reads font
  run_simp
  rw [name_45 _ (subsetName_chars h) (by run_simp)]
  run_simp
  exact close_top rfl (by same) (by keys)

theorem run_widthEntry (p : Nat × Nat) (st : List Entry) :
    run st (widthEntry p) = some (onStack [nat p.1, .arr [nat p.2]] ++ st) := by
  unfold widthEntry
  run_simp
  rfl

theorem cidFont_reads (e : Env) (d : Doc) (i desc : Nat) (h : FamilyOK (e.family (familyAt d (i + 1)))) :
    Reads (cidFont e (familyAt d (i + 1)) (i + 1) desc) (objVal e d i (.cidFont desc)) := by
  unfold Reads cidFont
  run_simp
  rw [name_45 _ (subsetName_chars h) (by run_simp)]
  run_simp
  rw [closeDict_entries (ps := [(lit "Ordering", .str (lit "Identity")), (lit "Registry", .str (lit "Adobe")), (lit "Supplement", nat 0)])
    (by same) (by keys)]
  run_simp
  rw [run_append (run_flatMap widthEntry (fun p => [nat p.1, .arr [nat p.2]]) _ (fun p _ st => run_widthEntry p st) _)]
  run_simp
  exact close_top rfl (by same; rfl) (by keys)

theorem fontDesc_reads (e : Env) (d : Doc) (i file : Nat) (h : FamilyOK (e.family (familyAt d (i + 2)))) :
    Reads (fontDesc e (familyAt d (i + 2)) (i + 2) file) (objVal e d i (.fontDesc file)) := by
  unfold Reads fontDesc
  run_simp
  rw [name_67 _ (subsetName_chars h) (by run_simp)]
  run_simp
  exact close_top rfl (by same) (by keys)

theorem paren (b : Bytes) : lit ")\n" ++ b = 41 :: (lit "\n" ++ b) := rfl

theorem encryption_reads (e : Env) (d : Doc) (i : Nat) : Reads (encryption e) (objVal e d i .encryption) := by
  unfold Reads encryption
  run_simp
  rw [paren, str_127]
  run_simp
  rw [paren, str_128]
  run_simp
  exact close_top rfl (by same) (by keys)

end Verif.PdfObject
