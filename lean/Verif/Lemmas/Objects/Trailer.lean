import Verif.Lemmas.Compile
import Verif.Lemmas.Objects.Data
/- Reading the trailer. -/
set_option maxRecDepth 10000
namespace Verif.PdfObject
open Doc Objects ObjectValue

/-- A text that adds entries to a dictionary. -/
def Adds (a : Bytes) (ps : List (String × Val)) : Prop := ∀ st b, run st (a ++ b) = run (onStack (entries (keyed ps)) ++ st) b

theorem Adds.nil : Adds [] [] := fun _ _ => rfl

theorem Adds.append {a b : Bytes} {p q : List (String × Val)} (h : Adds a p) (h' : Adds b q) : Adds (a ++ b) (p ++ q) := by
  intro st c
  rw [List.append_assoc, h, h', keyed_append, entries_append, onStack_append, List.append_assoc]

theorem lex_feff (key : String) (hk : NameChars (lit key)) :
    feedAll .gap (lit "/" ++ lit key ++ lit " <FEFF") = some ([.name (lit key)], .hex (lit "FEFF")) := by
  have h1 : feedAll .gap (lit "/") = some ([], .name []) := by decide +kernel
  have h2 : Starts (lit " <FEFF") = true := by decide +kernel
  have h3 : feedAll .gap (lit " <FEFF") = some ([], .hex (lit "FEFF")) := by decide +kernel
  rw [List.append_assoc, feedAll_then h1, feedAll_then (feedAll_name_reg hk), feedAll_name h2, h3]
  simp

theorem adds_info (key : String) (hk : NameChars (lit key)) (s : List Nat) (h : ∀ r ∈ s, r < 65536) :
    Adds (Info.infoLine key s).flatten (textEntry key s) := by
  unfold Info.infoLine textEntry
  by_cases hs : s = []
  · simp only [hs, if_true, List.flatten_nil]; exact Adds.nil
  · simp only [hs, if_false]
    intro st b
    have e : lit ">\n" = 62 :: lit "\n" := by decide
    simp only [List.flatten_cons, List.flatten_nil, List.append_nil, List.append_assoc]
    rw [e, List.cons_append, ← List.append_assoc (lit key), ← List.append_assoc (lit "/"), ← List.append_assoc (lit "/"),
      run_hex (st1 := .val (.name (lit key)) :: st) (lex_feff key hk) (by simp [pushAll, push]) (title_hex s h).1 (title_hex s h).2]
    have h10 : feedAll .gap (lit "\n") = some ([], .gap) := by decide +kernel
    rw [run_then h10 (st1 := .val (.str (utf16 s)) :: .val (.name (lit key)) :: st) rfl]
    rfl

theorem escape_same {t : Bytes} (h : ∀ b ∈ t, b ≠ 40 ∧ b ≠ 41 ∧ b ≠ 92 ∧ b ≠ 13) : Escape.escape t = t := by
  have one : ∀ (o : UInt8) n (l : Bytes), (∀ b ∈ l, b ≠ o) → Escape.replaceByte o n l = l := by
    intro o n l hl
    induction l with
    | nil => rfl
    | cons x l ih =>
      have h1 := hl x (by simp)
      have h2 := ih fun b hb => hl b (by simp [hb])
      unfold Escape.replaceByte at h2 ⊢
      rw [List.flatMap_cons, h2, if_neg h1]; rfl
  unfold Escape.escape
  simp only
  rw [one 92 _ t (fun b hb => (h b hb).2.2.1), one 40 _ t (fun b hb => (h b hb).1), one 41 _ t (fun b hb => (h b hb).2.1),
    one 13 _ t (fun b hb => (h b hb).2.2.2)]

theorem adds_date (t : Bytes) (h : ∀ b ∈ t, b ≠ 40 ∧ b ≠ 41 ∧ b ≠ 92 ∧ b ≠ 13) :
    Adds (lit "/CreationDate(D:" ++ t ++ lit ")\n") [("CreationDate", .str (lit "D:" ++ t))] := by
  intro st b
  have e : lit "/CreationDate(D:" ++ t = lit "/CreationDate(" ++ (Escape.escape (lit "D:" ++ t)) := by
    rw [escape_same, ← List.append_assoc]
    · rfl
    · intro b hb
      rcases List.mem_append.1 hb with hb | hb
      · exact (by decide +kernel : ∀ b ∈ lit "D:", b ≠ 40 ∧ b ≠ 41 ∧ b ≠ 92 ∧ b ≠ 13) b hb
      · exact h b hb
  have e1 : lit ")\n" = 41 :: lit "\n" := by decide
  have ha : feedAll .gap (lit "/CreationDate(") = some ([.name (lit "CreationDate")], .str .norm 0 []) := by decide +kernel
  have h10 : feedAll .gap (lit "\n") = some ([], .gap) := by decide +kernel
  rw [e, e1]
  simp only [List.append_assoc, List.cons_append]
  rw [run_str (st1 := .val (.name (lit "CreationDate")) :: st) ha (by simp [pushAll, push]),
    run_then h10 (st1 := .val (.str (lit "D:" ++ t)) :: .val (.name (lit "CreationDate")) :: st) rfl]
  simp [onStack, entries, keyed]

theorem nodup_text {l : List (List (String × Val))} {ks : List String} (hl : l.length = ks.length)
    (h : ∀ k, ∀ p ∈ l.getD k [], p.1 = ks.getD k "" ) (h1 : ∀ k, (l.getD k []).length ≤ 1) (hn : (ks.map lit).Nodup) :
    ((l.flatten).map fun p => lit p.1).Nodup := by
  have : ((l.flatten).map fun p => lit p.1).Sublist (ks.map lit) := by
    clear hn
    induction l generalizing ks with
    | nil => simp
    | cons x l ih =>
      match ks, hl with
      | k :: ks, hl =>
        simp only [List.length_cons, Nat.add_right_cancel_iff] at hl
        have i := ih hl (fun j => by simpa using h (j + 1)) (fun j => by simpa using h1 (j + 1))
        have hx := h 0
        have hx1 := h1 0
        simp only [List.getD_cons_zero] at hx hx1
        match x, hx1 with
        | [], _ => simpa using i.cons _
        | [p], _ =>
          have := hx p (by simp)
          simp only [List.flatten_cons, List.cons_append, List.nil_append, List.map_cons, this]
          exact i.cons₂ _
  exact this.nodup hn

theorem text_len (k : String) (s : List Nat) : (textEntry k s).length ≤ 1 := by
  unfold textEntry; split <;> simp
theorem text_key (k : String) (s : List Nat) : ∀ p ∈ textEntry k s, p.1 = k := by
  unfold textEntry; split <;> simp

theorem info_keys (i : Info.PdfInfo) : ((keyed (textEntry "Author" i.author ++ textEntry "Title" i.title ++ textEntry "Subject" i.subject ++
    textEntry "Creator" i.creator ++ textEntry "Producer" i.producer ++
    (match i.creationDate with | some t => [("CreationDate", .str (lit "D:" ++ t))] | none => []))).map (·.1)).Nodup := by
  have := nodup_text (l := [textEntry "Author" i.author, textEntry "Title" i.title, textEntry "Subject" i.subject,
      textEntry "Creator" i.creator, textEntry "Producer" i.producer,
      (match i.creationDate with | some t => [("CreationDate", .str (lit "D:" ++ t))] | none => [])])
    (ks := ["Author", "Title", "Subject", "Creator", "Producer", "CreationDate"]) rfl (by
      intro k
      match k with
      | 0 => exact text_key _ _
      | 1 => exact text_key _ _
      | 2 => exact text_key _ _
      | 3 => exact text_key _ _
      | 4 => exact text_key _ _
      | 5 => cases i.creationDate <;> simp
      | k + 6 => simp) (by
      intro k
      match k with
      | 0 => exact text_len _ _
      | 1 => exact text_len _ _
      | 2 => exact text_len _ _
      | 3 => exact text_len _ _
      | 4 => exact text_len _ _
      | 5 => cases i.creationDate <;> simp
      | k + 6 => simp) (by decide +kernel)
  rw [keyed_keys]
  simpa [List.append_assoc] using this

theorem adds_infoDict (i : Info.PdfInfo) (h : InfoOK i) : Adds (Info.writeInfo i).flatten [("Info", infoVal i)] := by
  intro st b
  have c : ∀ k ∈ ["Author", "Title", "Subject", "Creator", "Producer"], NameChars (lit k) := by
    have : ∀ k ∈ ["Author", "Title", "Subject", "Creator", "Producer"], ∀ b ∈ lit k, ContentReader.isRegular b = true ∧ b ≠ 35 := by
      decide +kernel
    exact this
  have hb : Adds ((Info.infoLine "Author" i.author).flatten ++ (Info.infoLine "Title" i.title).flatten ++
      (Info.infoLine "Subject" i.subject).flatten ++ (Info.infoLine "Creator" i.creator).flatten ++
      (Info.infoLine "Producer" i.producer).flatten ++
      (match i.creationDate with | some d => [lit "/CreationDate(D:" ++ d ++ lit ")\n"] | none => []).flatten) _ :=
    ((((((adds_info "Author" (c _ (by simp)) _ h.author).append (adds_info "Title" (c _ (by simp)) _ h.title)).append
      (adds_info "Subject" (c _ (by simp)) _ h.subject)).append (adds_info "Creator" (c _ (by simp)) _ h.creator)).append
      (adds_info "Producer" (c _ (by simp)) _ h.producer)).append (q := (match i.creationDate with | some t => [("CreationDate", .str (lit "D:" ++ t))] | none => [])) (by
        have := h.date
        cases hd : i.creationDate with
        | none => exact Adds.nil
        | some t => simpa using adds_date t (this t (by simp [hd]))))
  have e1 : feedAll .gap (lit "/Info <<\n") = some ([.name (lit "Info"), .dictOpen], .gap) := by decide +kernel
  have e2 : feedAll .gap (lit " >>\n") = some ([.dictClose], .gap) := by decide +kernel
  have : (Info.writeInfo i).flatten = lit "/Info <<\n" ++ (((Info.infoLine "Author" i.author).flatten ++ (Info.infoLine "Title" i.title).flatten ++
      (Info.infoLine "Subject" i.subject).flatten ++ (Info.infoLine "Creator" i.creator).flatten ++
      (Info.infoLine "Producer" i.producer).flatten ++
      (match i.creationDate with | some d => [lit "/CreationDate(D:" ++ d ++ lit ")\n"] | none => []).flatten) ++ lit " >>\n") := by
    cases hd : i.creationDate <;> simp [Info.writeInfo, hd]
  rw [this, List.append_assoc, run_then (st1 := .dictOpen :: .val (.name (lit "Info")) :: st) e1 (by simp [pushAll, push]), List.append_assoc, hb,
    run_then (st1 := .val (infoVal i) :: .val (.name (lit "Info")) :: st) e2 ?_]
  · simp [onStack, entries, keyed]
  · simp only [pushAll, push, closeDict_onStack, List.append_nil]
    rw [closeDict_entries rfl (info_keys i)]
    rfl

theorem adds_encrypt (id : Nat) : Adds (lit "/Encrypt " ++ dec id ++ lit " 0 R\n/ID [()()]\n")
    [("Encrypt", .ref id), ("ID", .arr [.str [], .str []])] := by
  intro st b
  have e1 : feedAll .gap (lit "/Encrypt ") = some ([.name (lit "Encrypt")], .gap) := by decide +kernel
  have e2 : feedAll .gap (lit "\n/ID [()()]\n") = some ([.name (lit "ID"), .arrOpen, .str [], .str [], .arrClose], .gap) := by decide +kernel
  have e3 : lit "/Encrypt " ++ dec id ++ lit " 0 R\n/ID [()()]\n" = lit "/Encrypt " ++ (ref id ++ lit "\n/ID [()()]\n") := by
    rw [ref, List.append_assoc, List.append_assoc]; rfl
  rw [e3, List.append_assoc, run_then (st1 := .val (.name (lit "Encrypt")) :: st) e1 (by simp [pushAll, push]), List.append_assoc,
    run_ref id (by rfl), run_then (st1 := .val (.arr [.str [], .str []]) :: .val (.name (lit "ID")) :: .val (.ref id) :: .val (.name (lit "Encrypt")) :: st) e2
      (by simp [pushAll, push, closeArr])]
  simp [onStack, entries, keyed]

theorem trailer_keys (t : Compile.Trailer) (n : Nat) : ((keyed ([("Size", ObjectValue.nat (n + 1)), ("Root", .ref 1)] ++
    (match t.encrypt with | some id => [("Encrypt", .ref id), ("ID", .arr [.str [], .str []])] | none => []) ++
    (match t.info with | some i => [("Info", infoVal i)] | none => []))).map (·.1)).Nodup := by
  rw [keyed_keys]
  cases t.encrypt <;> cases t.info <;> simp only [List.append_nil, List.cons_append, List.nil_append, List.map_cons, List.map_nil] <;> decide +kernel

theorem trailer_reads (t : Compile.Trailer) (n : Nat) (h : ∀ i ∈ t.info, InfoOK i) :
    ∃ b, Compile.trailerBytes t n = lit "trailer" ++ b ∧ Reads b (trailerVal t n) := by
  have a1 : Adds (match t.encrypt with | some id => lit "/Encrypt " ++ dec id ++ lit " 0 R\n/ID [()()]\n" | none => [])
      (match t.encrypt with | some id => [("Encrypt", .ref id), ("ID", .arr [.str [], .str []])] | none => []) := by
    cases t.encrypt with
    | none => exact Adds.nil
    | some id => exact adds_encrypt id
  have a2 : Adds (match t.info with | some i => (Info.writeInfo i).flatten | none => []) (match t.info with | some i => [("Info", infoVal i)] | none => []) := by
    cases hi : t.info with
    | none => exact Adds.nil
    | some i => exact adds_infoDict i (h i (by simp [hi]))
  have e0 : lit "trailer\n<<\n/Size " = lit "trailer" ++ lit "\n<<\n/Size " := by decide
  have e1 : feedAll .gap (lit "\n<<\n/Size ") = some ([.dictOpen, .name (lit "Size")], .gap) := by decide +kernel
  have e2 : lit "\n/Root 1 0 R\n" = lit "\n/Root " ++ (ref 1 ++ lit "\n") := by decide +kernel
  have e3 : feedAll .gap (lit "\n/Root ") = some ([.name (lit "Root")], .gap) := by decide +kernel
  have e4 : feedAll .gap (lit "\n") = some ([], .gap) := by decide +kernel
  have e5 : feedAll .gap (lit ">>\n") = some ([.dictClose], .gap) := by decide +kernel
  have st0 : ∀ b, Starts (lit "\n/Root " ++ b) = true := fun b => starts_append (by decide +kernel)
  have st1 : ∀ b, Starts (lit "\n" ++ b) = true := fun b => starts_append (by decide +kernel)
  generalize hx : (match t.encrypt with | some id => lit "/Encrypt " ++ dec id ++ lit " 0 R\n/ID [()()]\n" | none => []) = x at a1
  generalize hy : (match t.info with | some i => (Info.writeInfo i).flatten | none => []) = y at a2
  have eb : Compile.trailerBytes t n = lit "trailer" ++ (lit "\n<<\n/Size " ++ (dec (n + 1) ++ (lit "\n/Root 1 0 R\n" ++ (x ++ (y ++ lit ">>\n"))))) := by
    subst hx hy
    rw [Compile.trailerBytes, e0]
    cases t.encrypt <;> cases t.info <;> simp [List.append_assoc]
  refine ⟨_, eb, ?_⟩
  unfold Reads
  rw [run_then (st1 := [.val (.name (lit "Size")), .dictOpen]) e1 (by simp [pushAll, push]), e2, List.append_assoc, run_dec _ (st0 _),
    run_then (st1 := [.val (.name (lit "Root")), .val (.num ((n + 1 : Nat) : ℚ)), .val (.name (lit "Size")), .dictOpen]) e3 (by simp [pushAll, push]),
    List.append_assoc, run_ref 1 (st1 _), run_then (st1 := [.val (.ref 1), .val (.name (lit "Root")), .val (.num ((n + 1 : Nat) : ℚ)), .val (.name (lit "Size")), .dictOpen]) e4 rfl,
    a1, a2, run_end e5]
  simp only [pushAll, push, closeDict_onStack, List.append_nil, closeDict_val]
  refine close_top rfl ?_ (trailer_keys t n)
  cases t.encrypt <;> cases t.info <;> simp [entries, keyed, ObjectValue.nat]

end Verif.PdfObject
