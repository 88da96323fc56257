import Verif.Model.Info
/-
Model of the file writer: gopdf.go 1012-1083 (`WriteTo`, `compilePdf`, `countingWriter`) and
2287-2356 (`xref`, `writeInfo`, `formatXrefline`).  Byte exact.
-/
namespace Verif.Compile

/-- An `io.Writer`: given a chunk it reports how many bytes it accepted and whether it failed. -/
structure Writer (σ : Type) where
  write : σ → Bytes → Nat × Bool × σ

/-- What an object's `write` method does to the writer: a finite sequence of chunk writes, each of which
may inspect the accepted count and the error (gopdf.go IObj.write; some objects stop on error, most ignore it).
This covers every `write(w, objID)` method of the library. -/
inductive Prog where
  | done : Prog
  | put (chunk : Bytes) (k : Nat → Bool → Prog) : Prog

/-- The object that just writes one chunk. -/
def Prog.chunk (b : Bytes) : Prog := .put b fun _ _ => .done

/-- `countingWriter` (gopdf.go 1068-1083): the wrapped writer and the running offset.
`accepted` is a ghost field: all the bytes the wrapped writer has taken so far. -/
structure CW (σ : Type) where
  sink : σ
  offset : Nat
  accepted : Bytes

/-- `newCountingWriter` (gopdf.go 1075-1077). -/
def CW.new (s : σ) : CW σ := { sink := s, offset := 0, accepted := [] }

/-- `countingWriter.Write` (gopdf.go 1079-1083). -/
def CW.write (w : Writer σ) (cw : CW σ) (b : Bytes) : Nat × Bool × CW σ :=
  match w.write cw.sink b with
  | (n, failed, s) =>
    (n, failed, { sink := s, offset := cw.offset + n, accepted := cw.accepted ++ b.take n })

/-- A write whose result is ignored, as with `fmt.Fprint(writer, ..)`/`io.WriteString(writer, ..)` in
`compilePdf` and `xref`. -/
def CW.put (w : Writer σ) (cw : CW σ) (b : Bytes) : CW σ := (cw.write w b).2.2

/-- Run an object's write method. -/
def Prog.run (w : Writer σ) : Prog → CW σ → CW σ
  | .done, cw => cw
  | .put b k, cw =>
    match cw.write w b with
    | (n, failed, cw') => (k n failed).run w cw'

/-- File header, gopdf.go 1051: `"%PDF-1.7\n%\xe2\xe3\xcf\xd3\n\n"`. -/
def header : Bytes := lit "%PDF-1.7\n%" ++ [0xe2, 0xe3, 0xcf, 0xd3] ++ lit "\n\n"

/-- The object loop of `compilePdf` (gopdf.go 1055-1063); returns `linelens`.
`i` is the index of the next object. -/
def writeObjs (w : Writer σ) (i : Nat) : List Prog → CW σ → CW σ × List Nat
  | [], cw => (cw, [])
  | p :: ps, cw =>
    let off := cw.offset
    let cw := cw.put w (dec (i + 1) ++ lit " 0 obj\n")
    let cw := p.run w cw
    let cw := cw.put w (lit "endobj\n\n")
    let (cw, offs) := writeObjs w (i + 1) ps cw
    (cw, off :: offs)

/-- `formatXrefline` (gopdf.go 2350-2356): left-pad with zeros to ten characters
(the loop is written in closed form). -/
def formatXrefline (n : Nat) : Bytes :=
  List.replicate (10 - (dec n).length) 48 ++ dec n

/-- What the trailer depends on: `isUseProtection`/`encryptionObjID`, and the information dictionary
if `isUseInfo` (gopdf.go 2303-2309). -/
structure Trailer where
  encrypt : Option Nat := none
  info : Option Info.PdfInfo := none

/-- The chunks written by `xref` (gopdf.go 2287-2316), in order.  `i` is the number of objects. -/
def xrefChunks (t : Trailer) (xrefOffset : Nat) (linelens : List Nat) (i : Nat) : List Bytes :=
  [lit "xref\n", lit "0 " ++ dec (i + 1) ++ lit "\n", lit "0000000000 65535 f \n"]
  ++ linelens.map (fun n => formatXrefline n ++ lit " 00000 n \n")
  ++ [lit "trailer\n", lit "<<\n", lit "/Size " ++ dec (linelens.length + 1) ++ lit "\n", lit "/Root 1 0 R\n"]
  ++ (match t.encrypt with
      | some id => [lit "/Encrypt " ++ dec id ++ lit " 0 R\n", lit "/ID [()()]\n"]
      | none => [])
  ++ (match t.info with
      | some i => Info.writeInfo i
      | none => [])
  ++ [lit ">>\n", lit "startxref\n", dec xrefOffset, lit "\n%%EOF\n"]

/-- `compilePdf` after `prepare` (gopdf.go 1043-1066). Returns `(n, err)` and the final writer;
`err` is the boolean "an error is returned", which is constantly false in the code. -/
def compileTo (w : Writer σ) (s : σ) (objs : List Prog) (t : Trailer) : (Nat × Bool) × CW σ :=
  let cw := (CW.new s).put w header
  let (cw, linelens) := writeObjs w 0 objs cw
  let cw := (xrefChunks t cw.offset linelens objs.length).foldl (CW.put w) cw
  ((cw.offset, false), cw)

/-- `bytes.Buffer` as a destination: accepts everything. -/
def bufferWriter : Writer Unit := { write := fun s b => (b.length, false, s) }

/-- `GetBytesPdf` (gopdf.go 1086-1102) on a prepared document. -/
def compileBytes (objs : List Prog) (t : Trailer) : Bytes :=
  (compileTo bufferWriter () objs t).2.accepted

/-- The body an object writes when no write fails. -/
def Prog.body : Prog → Bytes
  | .done => []
  | .put b k => b ++ (k b.length false).body

/-- A destination that fails for good once `cap` bytes have been accepted (disk full, closed socket). -/
def capWriter : Writer Nat :=
  { write := fun room b => (min room b.length, decide (room < b.length), room - min room b.length) }

/-- `io.Writer`'s contract. -/
def Writer.Lawful (w : Writer σ) : Prop :=
  ∀ s b, (w.write s b).1 ≤ b.length ∧ ((w.write s b).2.1 = false → (w.write s b).1 = b.length)

end Verif.Compile
