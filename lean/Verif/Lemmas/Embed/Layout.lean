import Verif.Lemmas.Embed.Closure
namespace Verif.Embed
open Verif.TTF Verif.CmapSpec Verif.FontFile

/-- Overwriting inside the buffer. -/
theorem write_inplace {pos : Nat} {A X C p : Bytes} (hA : A.length = pos) (hX : X.length = p.length) :
    (Buff.mk pos (A ++ X ++ C)).write p = ⟨pos + p.length, A ++ p ++ C⟩ := by
  subst hA
  simp only [Buff.write, Buff.mk.injEq, true_and]
  have h0 : A.length + p.length - (A ++ X ++ C).length = 0 := by simp; omega
  rw [h0]
  simp only [List.replicate_zero, List.append_nil]
  have h1 : (A ++ X ++ C).take A.length = A := by simp [List.append_assoc]
  have h2 : (A ++ X ++ C).drop (A.length + p.length) = C := by
    rw [← hX, List.append_assoc, ← List.drop_drop]
    simp
  rw [h1, h2]

/-- Writing at or after the end. -/
theorem write_extend {pos : Nat} {A p : Bytes} (h : A.length ≤ pos) :
    (Buff.mk pos A).write p = ⟨pos + p.length, A ++ List.replicate (pos - A.length) 0 ++ p⟩ := by
  simp only [Buff.write, Buff.mk.injEq, true_and]
  have e : pos + p.length - A.length = (pos - A.length) + p.length := by omega
  rw [e, ← List.replicate_append_replicate, ← List.append_assoc]
  have hl : (A ++ List.replicate (pos - A.length) (0 : UInt8)).length = pos := by simp; omega
  have h1 : (A ++ List.replicate (pos - A.length) (0 : UInt8) ++ List.replicate p.length 0).take pos =
      A ++ List.replicate (pos - A.length) (0 : UInt8) := by
    rw [List.take_append_of_le_length (by omega), List.take_of_length_le (by omega)]
  have h2 : (A ++ List.replicate (pos - A.length) (0 : UInt8) ++ List.replicate p.length 0).drop (pos + p.length) = [] := by
    apply List.drop_eq_nil_of_le; rw [List.length_append, hl]; simp
  rw [h1, h2, List.append_nil]

/-- A table as it goes into the file: tag, data, checksum, length. -/
structure Piece where
  tag : Bytes
  data : Bytes
  sum : Nat
  len : Nat

/-- Its directory record, for a table at `pos`. -/
def Piece.record (p : Piece) (pos : Nat) : Bytes := p.tag ++ be32 p.sum ++ be32 pos ++ be32 p.len

/-- The directory records of consecutive tables from `pos`. -/
def records : Nat → List Piece → Bytes
  | _, [] => []
  | pos, p :: ps => p.record pos ++ records (pos + p.data.length) ps

theorem be32_length (v : Nat) : (be32 v).length = 4 := rfl

theorem record_length {p : Piece} (h : p.tag.length = 4) (pos : Nat) : (p.record pos).length = 16 := by
  simp [Piece.record, h, be32_length]

/-- Overwriting 16 zero bytes by a directory record, in the four writes of the program. -/
theorem write_record {A C : Bytes} {tag : Bytes} (c pos len : Nat) (h : tag.length = 4) (q : Nat) :
    ((((((Buff.mk q (A ++ List.replicate 16 0 ++ C)).setPosition A.length).write tag).write (be32 c)).write
      (be32 pos)).write (be32 len)).datas = A ++ (tag ++ be32 c ++ be32 pos ++ be32 len) ++ C := by
  have e : A ++ List.replicate 16 0 ++ C =
      A ++ List.replicate 4 0 ++ (List.replicate 4 0 ++ (List.replicate 4 0 ++ (List.replicate 4 0 ++ C))) := by
    simp only [List.append_assoc]
    rw [show (16 : Nat) = 4 + (4 + (4 + 4)) from rfl]
    simp only [← List.replicate_append_replicate, List.append_assoc]
  simp only [Buff.setPosition, e]
  rw [write_inplace rfl (by simp [h])]
  rw [← List.append_assoc (A ++ tag)]
  rw [write_inplace (A := A ++ tag) (by simp) (by rfl)]
  rw [← List.append_assoc (A ++ tag ++ be32 c)]
  rw [write_inplace (A := A ++ tag ++ be32 c) (by simp [Nat.add_assoc]) (by rfl)]
  rw [← List.append_assoc (A ++ tag ++ be32 c ++ be32 pos)]
  rw [write_inplace (A := A ++ tag ++ be32 c ++ be32 pos) (by simp [Nat.add_assoc]) (by rfl)]
  simp [List.append_assoc]

theorem tablesLoop_spec {f : Font} {glyf : Bytes} {loca : List Nat} : ∀ (ts : List Bytes) (idx pos : Nat) (buff buff' : Buff)
    (H D B : Bytes), (∀ t ∈ ts, t.length = 4) → H.length = 12 → D.length = 16 * idx →
    buff.datas.length ≤ pos → (ts = [] → buff.datas.length = pos) →
    pos = 12 + 16 * (idx + ts.length) + B.length →
    buff.datas ++ List.replicate (pos - buff.datas.length) 0 = H ++ D ++ List.replicate (16 * ts.length) 0 ++ B →
    tablesLoop f glyf loca idx pos ts buff = .ok buff' →
    ∃ ps : List Piece, ps.map (·.tag) = ts ∧ (∀ p ∈ ps, tableData f glyf loca p.tag = .ok (p.data, p.sum, p.len)) ∧
      buff'.datas = H ++ D ++ records pos ps ++ B ++ (ps.map (·.data)).flatten := by
  intro ts
  induction ts with
  | nil =>
    intro idx pos buff buff' H D B _ _ _ hle hnil hpos hd h
    simp only [tablesLoop, Except.ok.injEq] at h
    subst h
    refine ⟨[], rfl, by simp, ?_⟩
    rw [hnil rfl] at hd
    simpa [records] using hd
  | cons tag ts ih =>
    intro idx pos buff buff' H D B htag hH hD hle hnil hpos hd h
    simp only [tablesLoop, bind_ok] at h
    obtain ⟨⟨d, c, len⟩, htd, h⟩ := h
    have ht4 : tag.length = 4 := htag tag (by simp)
    obtain ⟨q, datas⟩ := buff
    simp only at hle hd
    simp only [Buff.setPosition] at h
    rw [write_extend hle, hd] at h
    have hrec := write_record (A := H ++ D) (C := List.replicate (16 * ts.length) 0 ++ B ++ d) c pos len ht4 (pos + d.length)
    have hA : (H ++ D).length = idx * 16 + 12 := by simp [hH, hD]; omega
    rw [hA] at hrec
    have esplit : H ++ D ++ List.replicate (16 * (tag :: ts).length) 0 ++ B ++ d =
        H ++ D ++ List.replicate 16 0 ++ (List.replicate (16 * ts.length) 0 ++ B ++ d) := by
      simp only [List.length_cons, List.append_assoc]
      rw [show 16 * (ts.length + 1) = 16 + 16 * ts.length by omega, ← List.replicate_append_replicate]
      simp [List.append_assoc]
    simp only [esplit] at h
    simp only [Buff.setPosition] at hrec
    have hdlen : (((((Buff.mk (idx * 16 + 12) (H ++ D ++ List.replicate 16 0 ++ (List.replicate (16 * ts.length) 0 ++ B ++ d))).write
        tag).write (be32 c)).write (be32 pos)).write (be32 len)).datas.length = pos + d.length := by
      rw [hrec]
      simp only [List.length_append, List.length_replicate, hH, hD, ht4, be32_length, List.length_cons] at *
      omega
    obtain ⟨ps, p1, p2, p3⟩ := ih (idx + 1) (pos + d.length) _ buff' H (D ++ (tag ++ be32 c ++ be32 pos ++ be32 len)) (B ++ d)
      (fun t ht => htag t (by simp [ht])) hH (by simp [hD, ht4, be32_length]; omega) (by rw [hdlen]) (fun _ => hdlen)
      (by simp only [List.length_append, List.length_cons] at *; omega)
      (by rw [hdlen, hrec]; simp [List.append_assoc]) h
    refine ⟨⟨tag, d, c, len⟩ :: ps, by simp [p1], ?_, ?_⟩
    · intro p hp
      rcases List.mem_cons.1 hp with rfl | hp
      · exact htd
      · exact p2 p hp
    · rw [p3]
      simp [records, Piece.record, List.append_assoc]

/-- The embedded font file: header, nine directory records, the tables' data one after another. -/
theorem makeFont_layout {f : Font} {vals : List Nat} {out : Bytes} (h : makeFont f vals = .ok out) :
    ∃ glyf loca ps, makeGlyfLoca f vals = .ok (glyf, loca) ∧ ps.map (·.tag) = tags ∧
      (∀ p ∈ ps, tableData f glyf loca p.tag = .ok (p.data, p.sum, p.len)) ∧
      out = (be32 0x00010000 ++ be16 9 ++ be16 128 ++ be16 3 ++ be16 16) ++ records 156 ps ++ (ps.map (·.data)).flatten := by
  unfold makeFont at h
  simp only [bind_ok] at h
  obtain ⟨⟨glyf, loca⟩, hgl, h⟩ := h
  simp only [bind_ok, pure_ok] at h
  obtain ⟨buff, hb, rfl⟩ := h
  have hbuf : ((((((Buff.mk 0 []).write (be32 0x00010000)).write (be16 9)).write (be16 (8 * 16))).write (be16 3)).write
      (be16 ((9 - 8) * 16))) = ⟨12, be32 0x00010000 ++ be16 9 ++ be16 128 ++ be16 3 ++ be16 16⟩ := by decide
  rw [hbuf] at hb
  obtain ⟨ps, p1, p2, p3⟩ := tablesLoop_spec tags 0 (12 + 16 * 9) _ buff
    (be32 0x00010000 ++ be16 9 ++ be16 128 ++ be16 3 ++ be16 16) [] [] (by decide) (by decide) (by decide) (by decide)
    (by decide) (by decide) (by decide) hb
  exact ⟨glyf, loca, ps, hgl, p1, p2, by rw [p3]; simp⟩

/-- Where the `i`-th piece starts. -/
def pieceOffset (pos : Nat) (ps : List Piece) (i : Nat) : Nat := pos + ((ps.take i).map (·.data)).flatten.length

theorem records_length {pos : Nat} {ps : List Piece} (h : ∀ p ∈ ps, p.tag.length = 4) :
    (records pos ps).length = 16 * ps.length := by
  induction ps generalizing pos with
  | nil => rfl
  | cons p ps ih =>
    simp only [records, List.length_append, List.length_cons, record_length (h p (by simp)),
      ih (fun q hq => h q (by simp [hq]))]
    omega

/-- The `i`-th directory record. -/
theorem records_get {ps : List Piece} (h : ∀ p ∈ ps, p.tag.length = 4) : ∀ (pos i : Nat) (p : Piece) (rest : Bytes),
    ps[i]? = some p →
    ∃ tail, ((records pos ps) ++ rest).drop (16 * i) = p.record (pieceOffset pos ps i) ++ tail := by
  induction ps with
  | nil => intro pos i p rest hp; simp at hp
  | cons q ps ih =>
    intro pos i p rest hp
    have hq := h q (by simp)
    cases i with
    | zero =>
      simp at hp; subst hp
      exact ⟨records (pos + q.data.length) ps ++ rest, by simp [records, pieceOffset]⟩
    | succ i =>
      obtain ⟨tail, ht⟩ := ih (fun x hx => h x (by simp [hx])) (pos + q.data.length) i p rest (by simpa using hp)
      refine ⟨tail, ?_⟩
      have e : pieceOffset (pos + q.data.length) ps i = pieceOffset pos (q :: ps) (i + 1) := by
        simp [pieceOffset]; omega
      rw [← e, ← ht]
      simp only [records, List.append_assoc]
      have e0 : (q.record pos ++ (records (pos + q.data.length) ps ++ rest)).drop 16 =
          records (pos + q.data.length) ps ++ rest := by
        have := List.drop_left (l₁ := q.record pos) (l₂ := records (pos + q.data.length) ps ++ rest)
        rwa [record_length hq] at this
      rw [show 16 * (i + 1) = 16 + 16 * i by omega, ← List.drop_drop, e0]

/-- The `i`-th table's data. -/
theorem data_get {ps : List Piece} : ∀ (i : Nat) (p : Piece), ps[i]? = some p →
    ∃ tail, ((ps.map (·.data)).flatten).drop (((ps.take i).map (·.data)).flatten.length) = p.data ++ tail := by
  induction ps with
  | nil => intro i p hp; simp at hp
  | cons q ps ih =>
    intro i p hp
    cases i with
    | zero => simp at hp; subst hp; exact ⟨(ps.map (·.data)).flatten, by simp⟩
    | succ i =>
      obtain ⟨tail, ht⟩ := ih i p (by simpa using hp)
      refine ⟨tail, ?_⟩
      rw [← ht]
      simp only [List.take_succ_cons, List.map_cons, List.flatten_cons, List.length_append]
      rw [← List.drop_drop]
      simp

/-! ### Numbers read back -/

theorem byte_of_drop {d : Bytes} {p : Nat} {b : UInt8} {rest : Bytes} (h : d.drop p = b :: rest) : byte d p b.toNat := by
  refine ⟨b, ?_, rfl⟩
  have : (d.drop p)[0]? = some b := by rw [h]; rfl
  simpa [List.getElem?_drop] using this

theorem U16_of_drop {d : Bytes} {p n : Nat} {rest : Bytes} (h : d.drop p = be16 n ++ rest) (hn : n < 2 ^ 16) : U16 d p n := by
  have h1 : d.drop (p + 1) = UInt8.ofNat n :: rest := by
    rw [← List.drop_drop, h]; rfl
  refine ⟨_, _, byte_of_drop h, byte_of_drop h1, ?_⟩
  simp only [UInt8.toNat_ofNat']
  omega

theorem U32_of_drop {d : Bytes} {p n : Nat} {rest : Bytes} (h : d.drop p = be32 n ++ rest) (hn : n < 2 ^ 32) : U32 d p n := by
  have e : be32 n = be16 (n / 2 ^ 16) ++ be16 (n % 2 ^ 16) := by
    simp only [be32, be16, List.cons_append, List.nil_append]
    congr 1
    · apply UInt8.toNat_inj.1; simp only [UInt8.toNat_ofNat']; omega
    congr 2
    · apply UInt8.toNat_inj.1; simp only [UInt8.toNat_ofNat']; omega
    congr 1
    · apply UInt8.toNat_inj.1; simp only [UInt8.toNat_ofNat']; omega
  rw [e, List.append_assoc] at h
  refine ⟨n / 2 ^ 16, n % 2 ^ 16, U16_of_drop h (by omega), U16_of_drop (rest := rest) ?_ (by omega), by omega⟩
  rw [← List.drop_drop, h]; rfl

end Verif.Embed
