import Verif.Lemmas.Objects.Lookup
import Verif.Lemmas.Objects.Trailer
import Verif.Props.DocMarks
import Verif.Props.DocPages
import Verif.Props.Objects
/- C56: from the bytes of the file to what is on its pages, with an independent reader. -/
set_option maxRecDepth 10000
namespace Verif.Props
open Doc Objects ObjectValue PdfObject FileReader

theorem sequence_map {α β : Type} (l : List α) (f : α → Option β) (g : α → β) (h : ∀ x ∈ l, f x = some (g x)) :
    sequence (l.map f) = some (l.map g) := by
  induction l with
  | nil => rfl
  | cons x l ih => simp [sequence, h x (by simp), ih fun y hy => h y (by simp [hy])]

/-- The trailer of the file is the dictionary it should be. -/
theorem trailer_reads_back (e : Env) (d : Doc) (hi : ∀ i ∈ e.info, InfoOK i) (hlen : (file e d).length < 10 ^ 10) :
    trailerDict (file e d) = some (trailerVal (trailerOf e d) d.objs.length) := by
  obtain ⟨b, h1, h2⟩ := trailer_reads (trailerOf e d) (progs e d).length hi
  obtain ⟨ts, h3, h4⟩ := run_iff.1 h2
  unfold trailerDict file
  rw [Compile.xrefTable_compile _ _ hlen]
  simp only [Option.bind_some]
  rw [h1, List.append_assoc, List.append_assoc, List.append_assoc, dropPrefix?_append]
  simp only [Option.bind_some]
  rw [scan_append h3 h4, scan_startxref]
  simp [progs]

/-- The entries of the streams of page `n`. -/
def pageEntries (d : Doc) (n : Nat) : List Doc.Entry := match d.objAt n with
  | some (.page cs _ _) => cs.flatMap fun c => match d.objAt c with
    | some (.content es) => es
    | _ => []
  | _ => []

theorem pageEntries_tags (d : Doc) (n : Nat) : (pageEntries d n).map (·.tag) = d.pageText n := by
  unfold pageEntries Doc.pageText
  cases h : d.objAt n with
  | none => rfl
  | some o =>
    cases o <;> try rfl
    next cs ls r =>
    simp only [List.map_flatMap]
    congr 1
    funext c
    unfold Doc.streamText
    cases hc : d.objAt c with
    | none => rfl
    | some o => cases o <;> rfl

theorem decrypt_stored {c : Decoder} {e : Env} (hm : c.md5 = e.md5) (hk : c.key = e.key) (n : Nat) (b : Bytes) : c.decrypt n (stored e n b) = b := by
  unfold Decoder.decrypt stored
  rw [hm, hk]
  cases e.key with
  | none => rfl
  | some k => exact Protect.xorKeyStream_invol _ _

/-- Objects are read at the numbers `objAt` counts with. -/
theorem object_at (e : Env) (he : Sound e) (hn : PlainNames e) (prot : Bool) (h : List Op) (hc : Op.compile ∉ h)
    (hlen : (file e (exec (start prot) (h ++ [.compile]))).length < 10 ^ 10) {n : Nat} {o : Obj}
    (ho : (exec (start prot) (h ++ [.compile])).objAt n = some o) (hw : Written (exec (start prot) (h ++ [.compile])) o) :
    object (file e (exec (start prot) (h ++ [.compile]))) n = some (objVal e (exec (start prot) (h ++ [.compile])) (n - 1) o,
      storedData e (exec (start prot) (h ++ [.compile])) (n - 1) o) := by
  unfold Doc.objAt at ho
  split at ho
  · simp at ho
  · next h0 =>
    have := every_object_reads_back e he hn prot h hc hlen (n - 1) o ho hw
    rwa [show n - 1 + 1 = n by omega] at this

/-- The pages a reader finds are the page objects, in the order they were added. -/
theorem pages_in_file (e : Env) (he : Sound e) (hn : PlainNames e) (hi : ∀ i ∈ e.info, InfoOK i) (prot : Bool) (h : List Op)
    (hc : Op.compile ∉ h) (hlen : (file e (exec (start prot) (h ++ [.compile]))).length < 10 ^ 10) :
    FileReader.pages (file e (exec (start prot) (h ++ [.compile]))) = some ((pageIds (start prot) h).map fun n =>
      objVal e (exec (start prot) (h ++ [.compile])) (n - 1) (((exec (start prot) (h ++ [.compile])).objAt n).getD .imported)) ∧
    ∀ n ∈ pageIds (start prot) h, ∃ cs ls r, (exec (start prot) (h ++ [.compile])).objAt n = some (.page cs ls r) := by
  have hreach : Reachable (exec (start prot) (h ++ [.compile])) := ⟨prot, _, rfl⟩
  obtain ⟨t1, t2, t3, t4⟩ := page_tree_first_compile prot h hc
  have at_ := fun {n : Nat} {o : Obj} => object_at e he hn prot h hc hlen (n := n) (o := o)
  generalize hd : exec (start prot) (h ++ [.compile]) = d at *
  have hcat : ∃ o, d.objAt 1 = some (.catalog o) := by
    obtain ⟨o, h1, h2⟩ := (reachable_base hreach).b0 |> ok_of_ident (k := "") (i := 0) <| rfl
    cases o <;> simp [Obj.kind] at h2
    exact ⟨_, h1⟩
  obtain ⟨oc, hcat⟩ := hcat
  have hpg : d.objAt 2 = some (.pages (pageIds (start prot) h) (h.count .addPage)) := by
    unfold Doc.pageTree at t1
    split at t1
    · next k c' hk' => simp only [Option.some.injEq, Prod.mk.injEq] at t1; rw [hk', t1.1, t1.2]
    · simp at t1
  have hpage : ∀ n ∈ pageIds (start prot) h, ∃ cs ls r, d.objAt n = some (.page cs ls r) := by
    intro n hn'
    have := t4 n hn'
    cases ho : d.objAt n with
    | none => rw [ho] at this; simp at this
    | some o =>
      rw [ho] at this
      cases o <;> simp [Obj.kind] at this
      exact ⟨_, _, _, rfl⟩
  refine ⟨?_, hpage⟩
  unfold FileReader.pages pageTree
  rw [trailer_reads_back e d hi hlen]
  simp only [Option.bind_some, follow, get_trailer_root, refOf, at_ hcat trivial, get_catalog_type, N, if_true, get_catalog_pages, at_ hpg trivial, get_pages_type,
    Option.map_some, get_pages_kids, ObjectValue.refs, List.map_map]
  refine sequence_map _ _ _ ?_
  intro n hn'
  obtain ⟨cs, ls, r, h1⟩ := hpage n hn'
  simp [refOf, at_ h1 trivial, get_page_type, N, h1]

/-- **C56** Reading the file gives the pages that were drawn: an independent reader that finds the trailer, the catalog, the
page tree, the pages and their content streams, decrypts with the document's key and decompresses, gets for every page, in
the order the pages were added, exactly the operators of the drawing calls made on it, in order (`drawn`), and nothing else. -/
theorem file_shows_what_was_drawn (e : Env) (he : Sound e) (hn : PlainNames e) (hi : ∀ i ∈ e.info, InfoOK i) (prot : Bool) (h : List Op)
    (hc : Op.compile ∉ h) (hs : ∀ k, Op.setPage k ∉ h) (hlen : (file e (exec (start prot) (h ++ [.compile]))).length < 10 ^ 10)
    (c : Decoder) (hm : c.md5 = e.md5) (hk : c.key = e.key) (hz : ∀ z, e.deflate = some z → ∀ b, c.inflate (z b) = some b)
    (hr : e.render [] = []) :
    ∃ pages : List (List Doc.Entry), pages.map (·.map (·.tag)) = drawn [] (h.zip (outcomes (start prot) h)) ∧
      pageContents c (file e (exec (start prot) (h ++ [.compile]))) = some (pages.map e.render) := by
  have hreach : Reachable (exec (start prot) (h ++ [.compile])) := ⟨prot, _, rfl⟩
  obtain ⟨t1, t2, t3, t4⟩ := page_tree_first_compile prot h hc
  obtain ⟨kids, cnt, s1, s2⟩ := pages_show_what_was_drawn prot h hc hs
  have at_ := fun {n : Nat} {o : Obj} => object_at e he hn prot h hc hlen (n := n) (o := o)
  have hpc := fun {i : Nat} {cs ls : List Nat} {r : Nat} => page_contents (prot := prot) hc (i := i) (cs := cs) (ls := ls) (r := r)
  have hone := fun p => ctIdx_length (d := exec (start prot) h) ⟨prot, h, rfl⟩ p
  have hpages := (pages_in_file e he hn hi prot h hc hlen).1
  rw [t1] at s1
  simp only [Option.some.injEq, Prod.mk.injEq] at s1
  obtain ⟨s1, _⟩ := s1
  rw [← s1] at s2
  generalize hd : exec (start prot) (h ++ [.compile]) = d at *
  have wf := reachable_wf hreach
  refine ⟨(pageIds (start prot) h).map (pageEntries d), ?_, ?_⟩
  · rw [← s2, List.map_map]
    congr 1
    funext n
    exact pageEntries_tags d n
  have hcont : ∀ n ∈ pageIds (start prot) h, ∃ cs ls r, d.objAt n = some (.page cs ls r) ∧ cs.length ≤ 1 ∧
      ∀ x ∈ cs, ∃ es, d.objAt x = some (.content es) := by
    intro n hn'
    have := t4 n hn'
    cases ho : d.objAt n with
    | none => rw [ho] at this; simp at this
    | some o =>
      rw [ho] at this
      cases o <;> simp [Obj.kind] at this
      next cs ls r =>
      refine ⟨cs, ls, r, rfl, ?_, ?_⟩
      · have ho' := ho
        unfold Doc.objAt at ho'
        split at ho'
        · simp at ho'
        · rw [hpc ho', List.length_map]; exact hone _
      · intro x hx
        have ho' := ho
        unfold Doc.objAt at ho'
        split at ho'
        · simp at ho'
        · obtain ⟨o, h1, h2⟩ := wf _ _ ho' ⟨"Contents", x, .contentStream⟩ (by simp [core, Doc.refs, hx])
          cases o <;> simp [Obj.kind] at h2
          exact ⟨_, h1⟩
  have hstream : ∀ x es, d.objAt x = some (.content es) → stream c (file e d) x = some (e.render es) := by
    intro x es hx
    unfold stream
    rw [at_ hx trivial]
    have hx0 : x - 1 + 1 = x := by
      unfold Doc.objAt at hx
      split at hx
      · simp at hx
      · omega
    simp only [Option.bind_some, storedData, streamData, Option.map_some, Decoder.decode, get_content_filter, hx0]
    cases hz' : e.deflate with
    | none =>
      simp only [Option.isSome_none, Bool.false_eq_true, if_false, decrypt_stored hm hk]
      simp [contentData, hz']
    | some z =>
      simp only [Option.isSome_some, if_true, N, decrypt_stored hm hk]
      simp [contentData, hz', hz z hz']
  unfold pageContents
  rw [hpages]
  simp only [Option.bind_some, List.map_map]
  refine sequence_map _ _ _ ?_
  intro n hn'
  obtain ⟨cs, ls, r, h1, h2, h3⟩ := hcont n hn'
  simp only [Function.comp_apply, FileReader.contents, h1, Option.getD_some, get_page_contents, pageEntries]
  match cs, h2 with
  | [], _ => simp [hr]
  | [x], _ =>
    obtain ⟨es, hx⟩ := h3 x (by simp)
    simp [hstream x es hx, hx]

theorem objAt_pos {d : Doc} {n : Nat} {o : Obj} (h : d.objAt n = some o) : n - 1 + 1 = n := by
  unfold Doc.objAt at h
  split at h
  · simp at h
  · omega

/-- The encryption dictionary a reader finds. -/
theorem encDict_reads_back (e : Env) (he : Sound e) (hn : PlainNames e) (h : List Op) (hc : Op.compile ∉ h)
    (hlen : (file e (exec (start true) (h ++ [.compile]))).length < 10 ^ 10) (t : Compile.Trailer) (k id : Nat) (ht : t.encrypt = some id) :
    encDict (file e (exec (start true) (h ++ [.compile]))) (trailerVal t k) (exec (start true) (h ++ [.compile])).encId =
      some ⟨e.o, e.u, e.p, []⟩ := by
  have ho := (encrypt_reference true h).1 rfl
  unfold encDict
  rw [object_at e he hn true h hc hlen ho trivial]
  obtain ⟨h1, h2, h3, h4, h5, h6⟩ := get_enc e (exec (start true) (h ++ [.compile])) ((exec (start true) (h ++ [.compile])).encId - 1)
  have i1 : isName "Standard" (N "Standard") = true := by simp [isName, N]
  have i2 : isNum 1 (ObjectValue.nat 1) = true := by simp [isNum, ObjectValue.nat]
  have i3 : isNum 2 (ObjectValue.nat 2) = true := by simp [isNum, ObjectValue.nat]
  have i4 : intOf (int e.p) = some e.p := by simp [intOf, int]
  simp only [Option.bind_some, h1, h2, h3, h4, h5, h6, Option.any_some, i1, i2, i3, i4, and_self, if_true, strOf, get_trailer_id t k id ht]

/-- **C56** The user password opens the file: a reader that takes the encryption dictionary and `/ID` from the file and derives
the key from the password accepts the user password and gets the key the data was encrypted with; with
`file_shows_what_was_drawn` it reads the pages. -/
theorem file_opens_with_user_password (e : Env) (he : Sound e) (hn : PlainNames e) (hi : ∀ i ∈ e.info, InfoOK i) (h : List Op)
    (hc : Op.compile ∉ h) (hlen : (file e (exec (start true) (h ++ [.compile]))).length < 10 ^ 10)
    (random : Bytes) (perm : BitVec 64) (hperm : perm.toNat < 256) (user owner : Bytes) (p : Protect.PDFProtection)
    (hp : Protect.setProtection e.md5 random perm user owner = some p)
    (hk : e.key = some p.encryptionKey) (ho : e.o = p.oValue) (hu : e.u = p.uValue) (hP : e.p = p.pValue.toInt) :
    openWith e.md5 user (file e (exec (start true) (h ++ [.compile]))) = some e.key := by
  have henc : (trailerOf e (exec (start true) (h ++ [.compile]))).encrypt = some (exec (start true) (h ++ [.compile])).encId := by
    simp [trailerOf, (exec_enc true (h ++ [.compile])).1]
  obtain ⟨a1, a2⟩ := user_password_opens e.md5 random perm hperm user owner p hp
  rw [← ho, ← hu, ← hP] at a1 a2
  unfold openWith
  rw [trailer_reads_back e _ hi hlen]
  simp only [Option.bind_some, get_trailer_encrypt, henc, Option.map_some]
  rw [encDict_reads_back e he hn h hc hlen _ _ _ henc]
  simp only [Option.bind_some, a1, if_true, a2, hk]

/-- **C56** The owner password opens the file too (unless it happens to pass for a user password with another key). -/
theorem file_opens_with_owner_password (e : Env) (he : Sound e) (hn : PlainNames e) (hi : ∀ i ∈ e.info, InfoOK i) (h : List Op)
    (hc : Op.compile ∉ h) (hlen : (file e (exec (start true) (h ++ [.compile]))).length < 10 ^ 10)
    (random : Bytes) (perm : BitVec 64) (hperm : perm.toNat < 256) (user owner : Bytes) (how : owner ≠ []) (p : Protect.PDFProtection)
    (hp : Protect.setProtection e.md5 random perm user owner = some p)
    (hk : e.key = some p.encryptionKey) (ho : e.o = p.oValue) (hu : e.u = p.uValue) (hP : e.p = p.pValue.toInt)
    (hne : SecurityHandler.authUser e.md5 ⟨e.o, e.u, e.p, []⟩ owner = true →
      SecurityHandler.fileKey e.md5 ⟨e.o, e.u, e.p, []⟩ owner = p.encryptionKey) :
    openWith e.md5 owner (file e (exec (start true) (h ++ [.compile]))) = some e.key := by
  have henc : (trailerOf e (exec (start true) (h ++ [.compile]))).encrypt = some (exec (start true) (h ++ [.compile])).encId := by
    simp [trailerOf, (exec_enc true (h ++ [.compile])).1]
  obtain ⟨_, a1, a2⟩ := owner_password_opens e.md5 random perm hperm user owner p hp
  have hl : ¬ owner.length = 0 := by simpa using how
  rw [if_neg hl, ← ho, ← hu, ← hP] at a1 a2
  unfold openWith
  rw [trailer_reads_back e _ hi hlen]
  simp only [Option.bind_some, get_trailer_encrypt, henc, Option.map_some]
  rw [encDict_reads_back e he hn h hc hlen _ _ _ henc]
  simp only [Option.bind_some]
  by_cases hu' : SecurityHandler.authUser e.md5 ⟨e.o, e.u, e.p, []⟩ owner = true
  · simp only [hu', if_true, hne hu', hk]
  · simp only [hu', Bool.false_eq_true, if_false, a1, if_true, a2, hk]

/-- An unprotected file opens with any password. -/
theorem unprotected_file_opens (e : Env) (d : Doc) (hd : d.prot = false) (hi : ∀ i ∈ e.info, InfoOK i) (hlen : (file e d).length < 10 ^ 10)
    (pass : Bytes) : openWith e.md5 pass (file e d) = some none := by
  unfold openWith
  rw [trailer_reads_back e d hi hlen]
  simp [get_trailer_encrypt, trailerOf, hd]

end Verif.Props
