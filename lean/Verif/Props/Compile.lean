import Verif.Lemmas.Compile
import Verif.Lemmas.Reader
/-
C01, C02 (file part), C09, C10: the produced file and how it is delivered.
-/
namespace Verif.Props
open Compile PdfReader

/-- **C01** For every list of objects, whatever they write, the file read by an independent PDF reader has a
cross-reference table with `objects+1` entries; entry 0 is the free entry; `startxref` points to `xref`; and
looking up object `k+1` through the table gives exactly the bytes object `k` wrote, followed by `endobj`. -/
theorem xref_locates_every_object (objs : List Prog) (t : Trailer)
    (hlen : (compileBytes objs t).length < 10 ^ 10) :
    (∃ off, startxref (compileBytes objs t) = some off ∧
      ∃ r, (compileBytes objs t).drop off = lit "xref\n" ++ r) ∧
    (∃ es rest, xrefTable (compileBytes objs t) = some (es, rest) ∧ es.length = objs.length + 1 ∧
      es[0]? = some ⟨0, 65535, false⟩) ∧
    ∀ (k : Nat) (hk : k < objs.length), ∃ rest,
      objectBytes (compileBytes objs t) (k + 1) = some (objs[k].body ++ lit "endobj\n\n" ++ rest) := by
  have hs := startxref_compile objs t
  have hx := xrefTable_compile objs t hlen
  obtain ⟨pre, hp, h⟩ := compileBytes_shape objs t
  refine ⟨⟨_, hs, ?_⟩, ⟨_, _, hx, by simp [objOffsets_length], by simp⟩, ?_⟩
  · rw [← hp, h, List.drop_left]
    have : lit "xref\n0 " = lit "xref\n" ++ lit "0 " := by decide
    rw [this]
    simp only [List.append_assoc]
    exact ⟨_, rfl⟩
  · intro k hk
    obtain ⟨off, h1, rest, h2, -⟩ := objOffsets_get (objs.map Prog.body) 0 header.length k header rfl
      (by simpa using hk) (lit "xref\n0 " ++ dec (objs.length + 1) ++ lit "\n" ++
      lit "0000000000 65535 f \n" ++
      ((objOffsets 0 header.length (objs.map Prog.body)).map
        (fun n => formatXrefline n ++ lit " 00000 n \n")).flatten ++
      trailerBytes t objs.length ++ lit "startxref\n" ++ dec pre.length ++ lit "\n%%EOF\n")
    rw [← hp, ← h, Nat.zero_add] at h2
    refine ⟨rest, ?_⟩
    unfold objectBytes
    rw [hx]
    simp only [Option.bind_eq_bind, Option.bind_some, List.getElem?_cons_succ, List.getElem?_map, h1,
      Option.map_some, if_true]
    rw [h2]
    simp only [List.append_assoc]
    rw [readNat_dec _ _ (by
      have : lit " 0 obj\n" = 32 :: lit "0 obj\n" := by decide
      rw [this]; simp; decide)]
    simp

/-- Non-trivial instance: two objects, one of them containing the text of an object header. -/
example : (compileBytes [Prog.chunk (lit "<<>>\n"), Prog.chunk (lit "1 0 obj\nendobj\n")]
    { encrypt := some 2 }).length < 10 ^ 10 := by decide +kernel

/-- **C01** (necessity of the size bound) an entry has the required 20 bytes exactly for offsets below 10^10. -/
theorem xref_entry_width_iff (n : Nat) :
    (formatXrefline n ++ lit " 00000 n \n").length = 20 ↔ n < 10 ^ 10 := by
  have hl : (lit " 00000 n \n").length = 10 := by decide
  rw [List.length_append, hl]
  constructor
  · intro h
    rcases Nat.lt_or_ge n (10 ^ 10) with h' | h'
    · exact h'
    · have := formatXrefline_length_big h'; omega
  · intro h; rw [formatXrefline_length h]

/-- **C02** (file part) the trailer's `/Size` is the number of objects plus one, `/Root` is object 1, and
`/Encrypt` is present exactly when protection is used, naming the given object. -/
theorem trailer_consistent (objs : List Prog) (t : Trailer)
    (hlen : (compileBytes objs t).length < 10 ^ 10) :
    (∃ r, trailer (compileBytes objs t) = some (objs.length + 1, 1, r)) ∧
    encryptRef (compileBytes objs t) = t.encrypt := by
  obtain ⟨post, h⟩ := trailer_compile objs t hlen
  refine ⟨⟨_, h⟩, ?_⟩
  unfold encryptRef
  rw [h]
  cases he : t.encrypt with
  | none =>
    have hnd : ∀ x y : Bytes, ∀ c, x.head? = some c → c ≠ 47 → dropPrefix? (lit "/Encrypt ") (x ++ y) = none := by
      intro x y c hx hc
      have e : lit "/Encrypt " = 47 :: lit "Encrypt " := by decide
      cases x with
      | nil => simp at hx
      | cons a x => simp at hx; subst hx; rw [e]; simp [dropPrefix?, Ne.symm hc]
    cases hi : t.info with
    | none =>
      simp only [Option.bind_eq_bind, Option.bind_some, List.nil_append]
      rw [hnd (lit ">>\n") post 62 (by decide) (by decide)]; rfl
    | some i =>
      have e : ∀ y, dropPrefix? (lit "/Encrypt ") (lit "/Info <<\n" ++ y) = none := by
        intro y
        have e1 : lit "/Encrypt " = 47 :: 69 :: lit "ncrypt " := by decide
        have e2 : lit "/Info <<\n" = 47 :: 73 :: lit "nfo <<\n" := by decide
        rw [e1, e2]; simp [dropPrefix?]
      simp only [Option.bind_eq_bind, Option.bind_some, List.nil_append, Info.writeInfo,
        List.flatten_append, List.append_assoc, List.flatten_cons, List.flatten_nil]
      rw [e]; rfl
  | some id =>
    have e : lit " 0 R\n/ID [()()]\n" = lit " 0 R\n" ++ lit "/ID [()()]\n" := by decide
    simp only [Option.bind_eq_bind, Option.bind_some, List.append_assoc, dropPrefix?_append, e]
    rw [readNat_dec _ _ (by
      have : lit " 0 R\n" = 32 :: lit "0 R\n" := by decide
      rw [this]; simp; decide)]
    simp

/-- **C02** The file begins with the version and then a comment line with four bytes that are not ASCII: what a reader skips, and
what tells that the file is binary. -/
theorem file_begins (objs : List Prog) (t : Trailer) : ∃ mark rest : Bytes,
    compileBytes objs t = lit "%PDF-1.7" ++ [10] ++ lit "%" ++ mark ++ [10] ++ rest ∧ mark.length = 4 ∧ ∀ b ∈ mark, 128 ≤ b.toNat := by
  rw [compileBytes_eq]
  refine ⟨[0xe2, 0xe3, 0xcf, 0xd3], [10] ++ (objSection 0 (objs.map Prog.body) ++ (xrefChunks t (header ++ objSection 0 (objs.map Prog.body)).length
      (objOffsets 0 header.length (objs.map Prog.body)) objs.length).flatten), ?_, rfl, by decide⟩
  have : header = lit "%PDF-1.7" ++ [10] ++ lit "%" ++ [0xe2, 0xe3, 0xcf, 0xd3] ++ [10] ++ [10] := by decide +kernel
  generalize (xrefChunks t (header ++ objSection 0 (objs.map Prog.body)).length (objOffsets 0 header.length (objs.map Prog.body)) objs.length).flatten = x
  rw [this]
  simp only [List.append_assoc]

/-- **C10** `WriteTo` returns the number of bytes the destination accepted, for every destination that respects
the `io.Writer` contract, whatever it accepts and whenever it fails. -/
theorem writeTo_count (w : Writer σ) (hw : w.Lawful) (s : σ) (objs : List Prog) (t : Trailer) :
    (compileTo w s objs t).1.1 = (compileTo w s objs t).2.accepted.length := by
  unfold compileTo
  apply foldl_put_offset w hw
  apply writeObjs_offset w hw
  exact write_offset w hw _ _ rfl

example : Writer.Lawful capWriter := by
  intro s b
  simp only [capWriter, decide_eq_false_iff_not]
  exact ⟨Nat.min_le_right _ _, fun h => by omega⟩

/-- **C10** (crash point) if the destination stops accepting after `cap` bytes, what it has accepted is exactly
the first `cap` bytes of the complete file, and that is the count returned; in particular nothing is reordered
or skipped. -/
theorem writeTo_prefix (cap : Nat) (objs : List Prog) (t : Trailer) :
    (compileTo capWriter cap objs t).2.accepted = (compileBytes objs t).take cap ∧
    (compileTo capWriter cap objs t).1.1 = min cap (compileBytes objs t).length := by
  have h := capRel_compile cap objs t
  refine ⟨h.1, ?_⟩
  have h3 : (compileTo capWriter cap objs t).1.1 = (compileTo capWriter cap objs t).2.offset := rfl
  rw [h3, h.2.2.1, h.1, List.length_take]
  rfl

/-- **C10** (violated) the error half of the property is false: a destination that accepts nothing at all makes
`WriteTo` return zero bytes and *no* error, although the file is not empty. -/
theorem writeTo_error_reported_fails :
    ∃ (objs : List Prog) (t : Trailer),
      (compileTo capWriter 0 objs t).1 = (0, false) ∧ compileBytes objs t ≠ [] := by
  exact ⟨[], {}, by decide, by decide⟩

/-- **C10** (violated, general form) no destination failure is ever reported, whatever the document. -/
theorem writeTo_never_reports (w : Writer σ) (s : σ) (objs : List Prog) (t : Trailer) :
    (compileTo w s objs t).1.2 = false := rfl

open Reader

/-- **C09** Reading a document whose buffer is fresh with any sequence of positive buffer sizes delivers exactly
the compiled file: after `i` calls the delivered bytes are the first `k₁+…+kᵢ` bytes, a call returns EOF exactly
if the whole file has already been delivered, and the document is compiled once (the final document state is the
one produced by a single compile). -/
theorem read_chunks_deliver_file {D : Type} (compile : D → Bytes × D) (d : D) (hne : (compile d).1 ≠ [])
    (ks : List Nat) (hk : ∀ k ∈ ks, 0 < k) (hks : ks ≠ []) :
    (reads compile { doc := d } ks).1.flatMap ReadRes.bytes = (compile d).1.take ks.sum ∧
    (∀ i, i < ks.length →
      ((reads compile { doc := d } ks).1[i]? = some .eof ↔ (compile d).1.length ≤ (ks.take i).sum)) ∧
    (reads compile { doc := d } ks).2.doc = (compile d).2 := by
  cases ks with
  | nil => exact absurd rfl hks
  | cons k ks =>
    have key : reads compile { doc := d } (k :: ks) =
        reads compile (compileIntoBuf compile { doc := d }) (k :: ks) := by
      have hal : (compileIntoBuf compile { doc := d }).alloc = true := by
        simp [compileIntoBuf, hne]
      have : Reader.read compile { doc := d } k = Reader.read compile (compileIntoBuf compile { doc := d }) k := by
        simp [Reader.read, hal]
      simp only [reads, this]
    have hal : (compileIntoBuf compile { doc := d }).alloc = true := by simp [compileIntoBuf, hne]
    have h := bufRead_reads compile (k :: ks) hk (compileIntoBuf compile { doc := d }) hal
    rw [key]
    refine ⟨h.1, ?_, ?_⟩
    · intro i hi; exact h.2.2.2 i hi
    · rw [h.2.1]; rfl

/-- **C09** After Close - whatever was read before - the document is read from the beginning again: it is compiled as it is then. -/
theorem read_after_close {D : Type} (compile : D → Bytes × D) (g : Gp D) (hne : (compile g.doc).1 ≠ [])
    (ks : List Nat) (hk : ∀ k ∈ ks, 0 < k) (hks : ks ≠ []) :
    (reads compile (close g) ks).1.flatMap ReadRes.bytes = (compile g.doc).1.take ks.sum ∧
    (∀ i, i < ks.length →
      ((reads compile (close g) ks).1[i]? = some .eof ↔ (compile g.doc).1.length ≤ (ks.take i).sum)) ∧
    (reads compile (close g) ks).2.doc = (compile g.doc).2 :=
  read_chunks_deliver_file compile g.doc hne ks hk hks

/-- The hypothesis is met by every real file: the compiled bytes are never empty. -/
theorem compileBytes_ne_nil (objs : List Prog) (t : Trailer) : compileBytes objs t ≠ [] := by
  rw [compileBytes_eq]
  have : header ≠ [] := by decide
  simp [this]

example : (reads (fun n : Nat => (lit "abcdefg", n + 1)) { doc := 0 } [3, 3, 5, 2]).1 =
    [.data (lit "abc"), .data (lit "def"), .data (lit "g"), .eof] := by decide

end Verif.Props
