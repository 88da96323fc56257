import Verif.Model.Compile
import Verif.Spec.PdfReader
import Verif.Lemmas.Bytes
namespace Verif.Compile
open PdfReader

/-- Bytes of the object section. -/
def objSection (i : Nat) : List Bytes → Bytes
  | [] => []
  | b :: bs => (dec (i + 1) ++ lit " 0 obj\n") ++ b ++ lit "endobj\n\n" ++ objSection (i + 1) bs

/-- Offsets of the objects when the section starts at `pos`. -/
def objOffsets (i pos : Nat) : List Bytes → List Nat
  | [] => []
  | b :: bs => pos :: objOffsets (i + 1)
      (pos + (dec (i + 1) ++ lit " 0 obj\n").length + b.length + (lit "endobj\n\n").length) bs

@[simp] theorem put_buffer (cw : CW Unit) (b : Bytes) :
    cw.put bufferWriter b = { sink := (), offset := cw.offset + b.length, accepted := cw.accepted ++ b } := by
  simp [CW.put, CW.write, bufferWriter]

theorem run_buffer (p : Prog) (cw : CW Unit) :
    p.run bufferWriter cw =
      { sink := (), offset := cw.offset + p.body.length, accepted := cw.accepted ++ p.body } := by
  induction p generalizing cw with
  | done => cases cw; simp [Prog.run, Prog.body]
  | put b k ih =>
    simp only [Prog.run, Prog.body]
    have : cw.write bufferWriter b =
        (b.length, false, { sink := (), offset := cw.offset + b.length, accepted := cw.accepted ++ b }) := by
      simp [CW.write, bufferWriter]
    rw [this]
    simp only [ih, List.length_append, List.append_assoc]
    simp [Nat.add_assoc]

theorem writeObjs_buffer (ps : List Prog) (i : Nat) (cw : CW Unit) :
    writeObjs bufferWriter i ps cw =
      ({ sink := (), offset := cw.offset + (objSection i (ps.map Prog.body)).length,
         accepted := cw.accepted ++ objSection i (ps.map Prog.body) },
       objOffsets i cw.offset (ps.map Prog.body)) := by
  induction ps generalizing i cw with
  | nil => cases cw; simp [writeObjs, objSection, objOffsets]
  | cons p ps ih =>
    simp only [writeObjs, put_buffer, run_buffer, ih, List.map_cons, objSection, objOffsets]
    simp [Nat.add_assoc]

theorem foldl_put_buffer (cs : List Bytes) (cw : CW Unit) :
    cs.foldl (CW.put bufferWriter) cw =
      { sink := (), offset := cw.offset + cs.flatten.length, accepted := cw.accepted ++ cs.flatten } := by
  induction cs generalizing cw with
  | nil => cases cw; simp
  | cons c cs ih => simp [ih, Nat.add_assoc]

/-- Closed form of the file. -/
theorem compileBytes_eq (objs : List Prog) (t : Trailer) :
    compileBytes objs t =
      header ++ objSection 0 (objs.map Prog.body) ++
      (xrefChunks t (header ++ objSection 0 (objs.map Prog.body)).length
        (objOffsets 0 header.length (objs.map Prog.body)) objs.length).flatten := by
  simp [compileBytes, compileTo, CW.new, writeObjs_buffer, foldl_put_buffer]

theorem objOffsets_length (i pos : Nat) (bs : List Bytes) : (objOffsets i pos bs).length = bs.length := by
  induction bs generalizing i pos with
  | nil => rfl
  | cons b bs ih => simp [objOffsets, ih]

theorem objOffsets_get (bs : List Bytes) (i pos k : Nat) (pre : Bytes) (hp : pre.length = pos)
    (h : k < bs.length) (post : Bytes) :
    ∃ off, (objOffsets i pos bs)[k]? = some off ∧
      ∃ rest, (pre ++ objSection i bs ++ post).drop off =
        dec (i + k + 1) ++ lit " 0 obj\n" ++ bs[k] ++ lit "endobj\n\n" ++ rest ∧
      off ≤ (pre ++ objSection i bs).length := by
  induction bs generalizing i pos k pre with
  | nil => simp at h
  | cons b bs ih =>
    cases k with
    | zero =>
      refine ⟨pos, by simp [objOffsets], objSection (i + 1) bs ++ post, ?_, ?_⟩
      · subst hp
        simp [objSection, List.append_assoc]
      · subst hp; simp
    | succ k =>
      have := ih (i + 1)
        (pos + (dec (i + 1) ++ lit " 0 obj\n").length + b.length + (lit "endobj\n\n").length) k
        (pre ++ ((dec (i + 1) ++ lit " 0 obj\n") ++ b ++ lit "endobj\n\n"))
        (by simp [hp, Nat.add_assoc]) (by simpa using h)
      obtain ⟨off, h1, rest, h2, h3⟩ := this
      refine ⟨off, by simpa [objOffsets] using h1, rest, ?_, ?_⟩
      · have e : i + 1 + k + 1 = i + (k + 1) + 1 := by omega
        rw [← e]
        simp only [objSection, List.append_assoc, List.getElem_cons_succ] at h2 ⊢
        exact h2
      · simpa [objSection, List.append_assoc] using h3

theorem formatXrefline_length {n : Nat} (h : n < 10 ^ 10) : (formatXrefline n).length = 10 := by
  have := (dec_length_le_iff (n := n) (k := 10) (by decide)).2 h
  simp [formatXrefline]; omega

theorem formatXrefline_length_big {n : Nat} (h : 10 ^ 10 ≤ n) : 10 < (formatXrefline n).length := by
  have : ¬ (dec n).length ≤ 10 := by
    rw [dec_length_le_iff (by decide)]; omega
  simp [formatXrefline]; omega

theorem formatXrefline_val (n : Nat) : decVal (formatXrefline n) = n := by
  rw [formatXrefline, decVal_zeros, decVal_dec]

theorem formatXrefline_digit (n : Nat) : ∀ b ∈ formatXrefline n, isDigit b = true := by
  intro b hb
  simp only [formatXrefline, List.mem_append, List.mem_replicate] at hb
  rcases hb with ⟨_, rfl⟩ | hb
  · decide
  · exact dec_all_digit n b hb

theorem parseEntry_line {n : Nat} (h : n < 10 ^ 10) :
    parseEntry (formatXrefline n ++ lit " 00000 n \n") = some ⟨n, 0, true⟩ := by
  have hl := formatXrefline_length h
  have hd := formatXrefline_digit n
  have ht : lit " 00000 n \n" = [32,48,48,48,48,48,32,110,32,10] := by decide
  have htn : lit " n \n" = [32,110,32,10] := by decide
  rw [ht]
  unfold parseEntry
  have e1 : (formatXrefline n ++ [32,48,48,48,48,48,32,110,32,10]).take 10 = formatXrefline n := by
    rw [List.take_left' hl]
  have e2 : ∀ k, (formatXrefline n ++ [32,48,48,48,48,48,32,110,32,10]).drop (10 + k) =
      ([32,48,48,48,48,48,32,110,32,10] : Bytes).drop k := by
    intro k; rw [← List.drop_drop, List.drop_left' hl]
  have e3 := e2 0; have e4 := e2 1; have e5 := e2 6
  simp only [Nat.add_zero] at e3
  rw [e1, e3, show (11 : Nat) = 10 + 1 from rfl, e4, show (16:Nat) = 10 + 6 from rfl, e5, htn]
  have hall : (formatXrefline n).all isDigit = true := by simpa using hd
  rw [formatXrefline_val]
  simp [hl, hall]
  decide

theorem parseEntries_lines (offs : List Nat) (h : ∀ o ∈ offs, o < 10 ^ 10) (rest : Bytes) :
    parseEntries offs.length ((offs.map (fun n => formatXrefline n ++ lit " 00000 n \n")).flatten ++ rest)
      = some (offs.map (fun o => ⟨o, 0, true⟩), rest) := by
  induction offs with
  | nil => rfl
  | cons o offs ih =>
    have ho := h o (by simp)
    have hl : (formatXrefline o ++ lit " 00000 n \n").length = 20 := by
      rw [List.length_append, formatXrefline_length ho]; decide
    simp only [List.length_cons, parseEntries, List.map_cons, List.flatten_cons]
    rw [List.append_assoc, List.take_left' hl, List.drop_left' hl, parseEntry_line ho,
      ih (fun o ho => h o (by simp [ho]))]
    rfl

theorem readNat_dec (n : Nat) (rest : Bytes) (hr : ∀ b ∈ rest.head?, isDigit b = false) :
    readNat (dec n ++ rest) = some (n, rest) := by
  have h := takeWhile_digit_append (d := dec n) (rest := rest) (dec_all_digit n) hr
  unfold readNat
  rw [h.1, h.2]
  cases hd : dec n with
  | nil => exact absurd hd (dec_ne_nil n)
  | cons a l =>
    have : decVal (a :: l) = n := by rw [← hd, decVal_dec]
    simp [this]

theorem startxref_append (pre : Bytes) (n : Nat) :
    startxref (pre ++ lit "startxref\n" ++ dec n ++ lit "\n%%EOF\n") = some n := by
  have h := takeWhile_digit_append (d := (dec n).reverse) (rest := (lit "startxref\n").reverse ++ pre.reverse)
    (fun b hb => dec_all_digit n b (by simpa using hb))
    (by
      have : (lit "startxref\n").reverse = 10 :: (lit "startxref").reverse := by decide
      rw [this]; simp; decide)
  unfold startxref
  simp only [List.reverse_append, List.append_assoc, dropPrefix?_append, Option.bind_eq_bind,
    Option.bind_some]
  rw [h.1, h.2]
  simp only [List.reverse_eq_nil_iff, dec_ne_nil, if_false, dropPrefix?_append, List.reverse_reverse,
    decVal_dec, Option.bind_some]
  rfl

end Verif.Compile

namespace Verif.Compile
open PdfReader

/-- Everything after the cross-reference entries. -/
def trailerBytes (t : Trailer) (n : Nat) : Bytes :=
  lit "trailer\n<<\n/Size " ++ dec (n + 1) ++ lit "\n/Root 1 0 R\n"
  ++ (match t.encrypt with
      | some id => lit "/Encrypt " ++ dec id ++ lit " 0 R\n/ID [()()]\n"
      | none => [])
  ++ (match t.info with
      | some i => (Info.writeInfo i).flatten
      | none => [])
  ++ lit ">>\n"

theorem xrefChunks_flatten (t : Trailer) (off : Nat) (ll : List Nat) (i : Nat) :
    (xrefChunks t off ll i).flatten =
      lit "xref\n0 " ++ dec (i + 1) ++ lit "\n" ++ lit "0000000000 65535 f \n" ++
      (ll.map (fun n => formatXrefline n ++ lit " 00000 n \n")).flatten ++
      trailerBytes t ll.length ++ lit "startxref\n" ++ dec off ++ lit "\n%%EOF\n" := by
  have e1 : lit "xref\n" ++ lit "0 " = lit "xref\n0 " := by decide
  have e2 : lit "trailer\n" ++ (lit "<<\n" ++ lit "/Size ") = lit "trailer\n<<\n/Size " := by decide
  have e3 : lit "\n" ++ lit "/Root 1 0 R\n" = lit "\n/Root 1 0 R\n" := by decide
  have e4 : lit " 0 R\n" ++ lit "/ID [()()]\n" = lit " 0 R\n/ID [()()]\n" := by decide
  rw [← e1]
  unfold xrefChunks trailerBytes
  rw [← e2, ← e3, ← e4]
  cases t.encrypt <;> cases t.info <;> simp [List.append_assoc]

theorem compileBytes_shape (objs : List Prog) (t : Trailer) :
    ∃ pre : Bytes, pre = header ++ objSection 0 (objs.map Prog.body) ∧
    compileBytes objs t = pre ++ (lit "xref\n0 " ++ dec (objs.length + 1) ++ lit "\n" ++
      lit "0000000000 65535 f \n" ++
      ((objOffsets 0 header.length (objs.map Prog.body)).map
        (fun n => formatXrefline n ++ lit " 00000 n \n")).flatten ++
      trailerBytes t objs.length ++ lit "startxref\n" ++ dec pre.length ++ lit "\n%%EOF\n") := by
  refine ⟨_, rfl, ?_⟩
  rw [compileBytes_eq, xrefChunks_flatten, objOffsets_length, List.length_map]

theorem startxref_compile (objs : List Prog) (t : Trailer) :
    startxref (compileBytes objs t) = some (header ++ objSection 0 (objs.map Prog.body)).length := by
  obtain ⟨pre, hp, h⟩ := compileBytes_shape objs t
  rw [h, ← hp]
  have := startxref_append (pre ++ (lit "xref\n0 " ++ dec (objs.length + 1) ++ lit "\n" ++
      lit "0000000000 65535 f \n" ++
      ((objOffsets 0 header.length (objs.map Prog.body)).map
        (fun n => formatXrefline n ++ lit " 00000 n \n")).flatten ++
      trailerBytes t objs.length)) pre.length
  simpa only [List.append_assoc] using this

theorem objOffsets_lt (objs : List Prog) (t : Trailer) (hlen : (compileBytes objs t).length < 10 ^ 10) :
    ∀ o ∈ objOffsets 0 header.length (objs.map Prog.body), o < 10 ^ 10 := by
  intro o ho
  obtain ⟨k, hk, hko⟩ := List.getElem_of_mem ho
  rw [objOffsets_length] at hk
  obtain ⟨off, h1, rest, -, h3⟩ := objOffsets_get (objs.map Prog.body) 0 header.length k header rfl hk []
  have hoff : off = o := by
    rw [List.getElem?_eq_getElem (by rw [objOffsets_length]; exact hk), hko] at h1
    exact (Option.some.inj h1).symm
  obtain ⟨pre, hp, h⟩ := compileBytes_shape objs t
  rw [h, List.length_append] at hlen
  rw [← hp] at h3
  omega

theorem xrefTable_compile (objs : List Prog) (t : Trailer) (hlen : (compileBytes objs t).length < 10 ^ 10) :
    xrefTable (compileBytes objs t) =
      some (⟨0, 65535, false⟩ :: (objOffsets 0 header.length (objs.map Prog.body)).map (fun o => ⟨o, 0, true⟩),
        trailerBytes t objs.length ++ lit "startxref\n" ++
          dec (header ++ objSection 0 (objs.map Prog.body)).length ++ lit "\n%%EOF\n") := by
  have hs := startxref_compile objs t
  have ho := objOffsets_lt objs t hlen
  obtain ⟨pre, hp, h⟩ := compileBytes_shape objs t
  rw [← hp] at hs ⊢
  unfold xrefTable
  rw [hs, h]
  simp only [Option.bind_eq_bind, Option.bind_some, List.drop_left, List.append_assoc, dropPrefix?_append]
  rw [readNat_dec _ _ (by
    have : lit "\n" = [10] := by decide
    rw [this]; simp; decide)]
  simp only [Option.bind_some, dropPrefix?_append, parseEntries]
  have hl : (lit "0000000000 65535 f \n").length = 20 := by decide
  rw [List.take_left' hl, List.drop_left' hl]
  have hf : parseEntry (lit "0000000000 65535 f \n") = some ⟨0, 65535, false⟩ := by decide
  rw [hf]
  have hol := objOffsets_length 0 header.length (objs.map Prog.body)
  rw [List.length_map] at hol
  have hpe := parseEntries_lines _ ho (trailerBytes t objs.length ++ (lit "startxref\n" ++
    (dec pre.length ++ lit "\n%%EOF\n")))
  rw [hol] at hpe
  rw [hpe]
  rfl

theorem trailer_compile (objs : List Prog) (t : Trailer) (hlen : (compileBytes objs t).length < 10 ^ 10) :
    ∃ post, trailer (compileBytes objs t) = some (objs.length + 1, 1,
      (match t.encrypt with
      | some id => lit "/Encrypt " ++ dec id ++ lit " 0 R\n/ID [()()]\n"
      | none => [])
      ++ (match t.info with
      | some i => (Info.writeInfo i).flatten
      | none => []) ++ lit ">>\n" ++ post) := by
  refine ⟨lit "startxref\n" ++ dec (header ++ objSection 0 (objs.map Prog.body)).length ++ lit "\n%%EOF\n", ?_⟩
  unfold trailer
  rw [xrefTable_compile objs t hlen]
  unfold trailerBytes
  have e3 : lit "\n/Root 1 0 R\n" = lit "\n/Root " ++ (dec 1 ++ lit " 0 R\n") := by decide
  simp only [Option.bind_eq_bind, Option.bind_some, List.append_assoc, dropPrefix?_append, e3]
  rw [readNat_dec _ _ (by
    have : lit "\n/Root " = 10 :: lit "/Root " := by decide
    rw [this]; simp; decide)]
  simp only [Option.bind_some, dropPrefix?_append]
  rw [readNat_dec _ _ (by
    have : lit " 0 R\n" = 32 :: lit "0 R\n" := by decide
    rw [this]; simp; decide)]
  simp only [Option.bind_some, dropPrefix?_append]
  rfl

/-! Writers with a failure point. -/

theorem write_offset (w : Writer σ) (hw : w.Lawful) (cw : CW σ) (b : Bytes)
    (h : cw.offset = cw.accepted.length) :
    (cw.write w b).2.2.offset = (cw.write w b).2.2.accepted.length := by
  have := (hw cw.sink b).1
  simp only [CW.write]
  simp [h, Nat.min_eq_left this]

theorem run_offset (w : Writer σ) (hw : w.Lawful) (p : Prog) (cw : CW σ)
    (h : cw.offset = cw.accepted.length) : (p.run w cw).offset = (p.run w cw).accepted.length := by
  induction p generalizing cw with
  | done => exact h
  | put b k ih =>
    simp only [Prog.run]
    exact ih _ _ _ (write_offset w hw cw b h)

theorem writeObjs_offset (w : Writer σ) (hw : w.Lawful) (ps : List Prog) (i : Nat) (cw : CW σ)
    (h : cw.offset = cw.accepted.length) :
    (writeObjs w i ps cw).1.offset = (writeObjs w i ps cw).1.accepted.length := by
  induction ps generalizing i cw with
  | nil => exact h
  | cons p ps ih =>
    simp only [writeObjs]
    apply ih
    apply write_offset w hw
    apply run_offset w hw
    exact write_offset w hw _ _ h

theorem foldl_put_offset (w : Writer σ) (hw : w.Lawful) (cs : List Bytes) (cw : CW σ)
    (h : cw.offset = cw.accepted.length) :
    (cs.foldl (CW.put w) cw).offset = (cs.foldl (CW.put w) cw).accepted.length := by
  induction cs generalizing cw with
  | nil => exact h
  | cons c cs ih => exact ih _ (write_offset w hw cw c h)

/-- Relation between a run against a full-capacity buffer and one against a limited destination. -/
def CapRel (cap : Nat) (a : CW Nat) (b : CW Unit) : Prop :=
  a.accepted = b.accepted.take cap ∧ b.offset = b.accepted.length ∧ a.offset = a.accepted.length ∧
  a.sink = cap - a.accepted.length

theorem capRel_write {cap : Nat} {a : CW Nat} {b : CW Unit} (h : CapRel cap a b) (x y : Bytes)
    (hxy : b.accepted.length < cap → x = y) :
    CapRel cap (a.write capWriter x).2.2 (b.write bufferWriter y).2.2 := by
  obtain ⟨h1, h2, h3, h4⟩ := h
  have hl : a.accepted.length = min cap b.accepted.length := by rw [h1, List.length_take]
  by_cases hb : b.accepted.length < cap
  · have := hxy hb; subst this
    have hr : min a.sink x.length = min (cap - b.accepted.length) x.length := by
      rw [h4, hl]; congr 1; omega
    refine ⟨?_, ?_, ?_, ?_⟩
    · simp only [CW.write, capWriter, bufferWriter, List.take_length]
      rw [List.take_append, h1, hr]
      congr 1
      rw [← List.take_eq_take_min]
    · simp [CW.write, bufferWriter, h2]
    · simp [CW.write, capWriter, h3]
    · simp [CW.write, capWriter]; omega
  · have hz : a.sink = 0 := by rw [h4, hl]; omega
    refine ⟨?_, ?_, ?_, ?_⟩
    · simp only [CW.write, capWriter, bufferWriter, List.take_length, hz]
      rw [List.take_append, h1]
      have : cap - b.accepted.length = 0 := by omega
      simp [this]
    · simp [CW.write, bufferWriter, h2]
    · simp [CW.write, capWriter, h3]
    · simp [CW.write, capWriter, hz]; omega


theorem mono_write (b : CW Unit) (y : Bytes) :
    (b.write bufferWriter y).2.2.accepted.length = b.accepted.length + y.length := by
  simp [CW.write, bufferWriter]

theorem mono_run (q : Prog) (b : CW Unit) : b.accepted.length ≤ (q.run bufferWriter b).accepted.length := by
  simp [run_buffer]

theorem capRel_run_full {cap : Nat} (p : Prog) : ∀ {a : CW Nat} {b : CW Unit}, CapRel cap a b →
    cap ≤ b.accepted.length → CapRel cap (p.run capWriter a) b := by
  induction p with
  | done => intro a b h _; exact h
  | put x k ih =>
    intro a b h hb
    simp only [Prog.run]
    apply ih _ _ ?_ hb
    have h2 := capRel_write h x [] (fun hc => absurd hc (by omega))
    have e : (b.write bufferWriter []).2.2 = b := by cases b; simp [CW.write, bufferWriter]
    rwa [e] at h2

theorem capRel_grow {cap : Nat} {a : CW Nat} {b b' : CW Unit} (h : CapRel cap a b)
    (hb : cap ≤ b.accepted.length) (s : Bytes) (hs : b'.accepted = b.accepted ++ s)
    (ho : b'.offset = b'.accepted.length) : CapRel cap a b' := by
  obtain ⟨h1, h2, h3, h4⟩ := h
  refine ⟨?_, ho, h3, h4⟩
  rw [hs, List.take_append_of_le_length hb, h1]

theorem capRel_run {cap : Nat} (p : Prog) : ∀ {a : CW Nat} {b : CW Unit}, CapRel cap a b →
    CapRel cap (p.run capWriter a) (p.run bufferWriter b) := by
  induction p with
  | done => intro a b h; exact h
  | put x k ih =>
    intro a b h
    simp only [Prog.run]
    have hw := capRel_write h x x (fun _ => rfl)
    by_cases hfit : b.accepted.length + x.length ≤ cap
    · have e1 : (b.write bufferWriter x).1 = x.length := by simp [CW.write, bufferWriter]
      have e2 : (b.write bufferWriter x).2.1 = false := by simp [CW.write, bufferWriter]
      have hl : a.accepted.length = b.accepted.length := by
        rw [h.1, List.length_take]; omega
      have e3 : (a.write capWriter x).1 = x.length := by
        simp [CW.write, capWriter, h.2.2.2]; omega
      have e4 : (a.write capWriter x).2.1 = false := by
        simp [CW.write, capWriter, h.2.2.2]; omega
      rw [e1, e2, e3, e4]
      exact ih _ _ hw
    · have hb : cap ≤ (b.write bufferWriter x).2.2.accepted.length := by rw [mono_write]; omega
      have h3 := capRel_run_full (k (a.write capWriter x).1 (a.write capWriter x).2.1) hw hb
      refine capRel_grow h3 hb (k (b.write bufferWriter x).1 (b.write bufferWriter x).2.1).body ?_ ?_
      · rw [run_buffer]
      · rw [run_buffer]; simp [hw.2.1]

theorem capRel_put {cap : Nat} {a : CW Nat} {b : CW Unit} (h : CapRel cap a b) (x y : Bytes)
    (hxy : b.accepted.length < cap → x = y) : CapRel cap (a.put capWriter x) (b.put bufferWriter y) :=
  capRel_write h x y hxy

theorem capRel_writeObjs {cap : Nat} (ps : List Prog) : ∀ (i : Nat) {a : CW Nat} {b : CW Unit},
    CapRel cap a b →
    CapRel cap (writeObjs capWriter i ps a).1 (writeObjs bufferWriter i ps b).1 ∧
    ((writeObjs bufferWriter i ps b).1.accepted.length < cap →
      (writeObjs capWriter i ps a).2 = (writeObjs bufferWriter i ps b).2) := by
  induction ps with
  | nil => intro i a b h; exact ⟨h, fun _ => rfl⟩
  | cons p ps ih =>
    intro i a b h
    have h1 := capRel_put h (dec (i + 1) ++ lit " 0 obj\n") _ (fun _ => rfl)
    have h2 := capRel_run p h1
    have h3 := capRel_put h2 (lit "endobj\n\n") _ (fun _ => rfl)
    have h4 := ih (i + 1) h3
    refine ⟨h4.1, fun hlt => ?_⟩
    have hoff : a.offset = b.offset := by
      rw [h.2.2.1, h.2.1, h.1, List.length_take]
      have : b.accepted.length ≤ (writeObjs bufferWriter i (p :: ps) b).1.accepted.length := by
        simp [writeObjs_buffer]
      omega
    have := h4.2 hlt
    simp only [writeObjs, hoff, this]

theorem capRel_foldl {cap : Nat} (cs ds : List Bytes) : ∀ {a : CW Nat} {b : CW Unit}, CapRel cap a b →
    (b.accepted.length < cap → cs = ds) →
    CapRel cap (cs.foldl (CW.put capWriter) a) (ds.foldl (CW.put bufferWriter) b) := by
  intro a b h hcd
  by_cases hb : b.accepted.length < cap
  · have := hcd hb
    subst this
    clear hcd hb
    induction cs generalizing a b with
    | nil => exact h
    | cons c cs ih => exact ih (capRel_put h c c (fun _ => rfl))
  · clear hcd
    have hb : cap ≤ b.accepted.length := by omega
    have h1 : CapRel cap (cs.foldl (CW.put capWriter) a) b := by
      induction cs generalizing a with
      | nil => exact h
      | cons c cs ih =>
        apply ih
        have h2 := capRel_put h c [] (fun hc => absurd hc (by omega))
        have e : b.put bufferWriter [] = b := by cases b; simp
        rwa [e] at h2
    refine capRel_grow h1 hb ds.flatten ?_ ?_
    · simp [foldl_put_buffer]
    · simp [foldl_put_buffer, h.2.1]

theorem capRel_compile (cap : Nat) (objs : List Prog) (t : Trailer) :
    CapRel cap (compileTo capWriter cap objs t).2 (compileTo bufferWriter () objs t).2 := by
  have h0 : CapRel cap (CW.new cap) (CW.new ()) := by simp [CapRel, CW.new]
  have h1 := capRel_put h0 header header (fun _ => rfl)
  have h2 := capRel_writeObjs objs 0 h1
  unfold compileTo
  apply capRel_foldl _ _ h2.1
  intro hlt
  rw [h2.2 hlt]
  have : (writeObjs capWriter 0 objs ((CW.new cap).put capWriter header)).1.offset =
      (writeObjs bufferWriter 0 objs ((CW.new ()).put bufferWriter header)).1.offset := by
    rw [h2.1.2.2.1, h2.1.2.1, h2.1.1, List.length_take]; omega
  rw [this]

end Verif.Compile
