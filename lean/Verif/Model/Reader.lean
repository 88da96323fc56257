import Verif.Base.Bytes
/- Model of `Read`, `Close`, `WriteTo` and `GetBytesPdf` over the internal buffer: gopdf.go 1014-1047, 1086-1102. -/
namespace Verif.Reader

/-- A document together with its `bytes.Buffer`.  `unread` is the unread part of the buffer and `alloc` tells
whether the buffer owns memory (`Cap() ≠ 0`).  `D` is the rest of the document. -/
structure Gp (D : Type) where
  doc : D
  unread : Bytes := []
  alloc : Bool := false

/-- Result of one `Read`: `n` bytes, or EOF. -/
inductive ReadRes where
  | data (b : Bytes)
  | eof
deriving DecidableEq, Repr

/-- `compilePdf(&gp.buf)` (gopdf.go 1043-1066): `prepare` mutates the document, `Close` drops the old buffer
content, then the file is appended to the buffer.  `compile` is the document-level compiler. -/
def compileIntoBuf (compile : D → Bytes × D) (g : Gp D) : Gp D :=
  let (b, d) := compile g.doc
  { doc := d, unread := b, alloc := !b.isEmpty }

/-- `bytes.Buffer.Read` for a destination of `k` bytes. -/
def bufRead (g : Gp D) (k : Nat) : ReadRes × Gp D :=
  if g.unread = [] then (if k = 0 then .data [] else .eof, g)
  else (.data (g.unread.take k), { g with unread := g.unread.drop k })

/-- `GoPdf.Read` (gopdf.go 1028-1035). -/
def read (compile : D → Bytes × D) (g : Gp D) (k : Nat) : ReadRes × Gp D :=
  if g.unread.length = 0 ∧ g.alloc = false then bufRead (compileIntoBuf compile g) k
  else bufRead g k

/-- `GoPdf.Close` (gopdf.go 1038-1041). -/
def close (g : Gp D) : Gp D := { g with unread := [], alloc := false }

/-- `GetBytesPdf` (gopdf.go 1086-1102): leaves the file in the buffer. -/
def getBytes (compile : D → Bytes × D) (g : Gp D) : Bytes × Gp D :=
  let g := compileIntoBuf compile (close g)
  (g.unread, g)

/-- A sequence of `Read` calls with the given buffer sizes. -/
def reads (compile : D → Bytes × D) : Gp D → List Nat → List ReadRes × Gp D
  | g, [] => ([], g)
  | g, k :: ks =>
    let (r, g) := read compile g k
    let (rs, g) := reads compile g ks
    (r :: rs, g)

/-- The bytes delivered by a read. -/
def ReadRes.bytes : ReadRes → Bytes
  | .data b => b
  | .eof => []

end Verif.Reader
