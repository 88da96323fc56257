import Verif.Base.Bytes
/-
A minimal PDF file reader, written from ISO 32000-1 §7.5 (file structure) and independent of the model:
it finds `startxref` from the end of the file, parses the cross-reference table found there and
fetches objects through it.
-/
namespace Verif.PdfReader

/-- Read a non-empty run of decimal digits. -/
def readNat (bs : Bytes) : Option (Nat × Bytes) :=
  match bs.takeWhile isDigit with
  | [] => none
  | ds => some (decVal ds, bs.dropWhile isDigit)

/-- §7.5.5: the file ends with `startxref`, a byte offset and `%%EOF`, each on its own line. -/
def startxref (file : Bytes) : Option Nat := do
  let r ← dropPrefix? (lit "\n%%EOF\n").reverse file.reverse
  let ds := r.takeWhile isDigit
  if ds = [] then none
  let _ ← dropPrefix? (lit "startxref\n").reverse (r.dropWhile isDigit)
  pure (decVal ds.reverse)

/-- §7.5.4: an entry is exactly 20 bytes, `nnnnnnnnnn ggggg n` or `f` and a two-byte line end. -/
structure Entry where
  offset : Nat
  gen : Nat
  inUse : Bool
deriving DecidableEq, Repr

def parseEntry (e : Bytes) : Option Entry :=
  if e.length = 20 ∧ (e.take 10).all isDigit ∧ (e.drop 10).take 1 = [32]
      ∧ ((e.drop 11).take 5).all isDigit then
    if e.drop 16 = lit " n \n" then some ⟨decVal (e.take 10), decVal ((e.drop 11).take 5), true⟩
    else if e.drop 16 = lit " f \n" then some ⟨decVal (e.take 10), decVal ((e.drop 11).take 5), false⟩
    else none
  else none

def parseEntries : Nat → Bytes → Option (List Entry × Bytes)
  | 0, bs => some ([], bs)
  | n + 1, bs => do
    let e ← parseEntry (bs.take 20)
    let (es, rest) ← parseEntries n (bs.drop 20)
    pure (e :: es, rest)

/-- The cross-reference table and the bytes following it (the trailer). -/
def xrefTable (file : Bytes) : Option (List Entry × Bytes) := do
  let off ← startxref file
  let r ← dropPrefix? (lit "xref\n0 ") (file.drop off)
  let (n, r) ← readNat r
  let r ← dropPrefix? (lit "\n") r
  parseEntries n r

/-- The bytes following `k 0 obj⏎` at the offset the table gives for object `k`. -/
def objectBytes (file : Bytes) (k : Nat) : Option Bytes := do
  let (es, _) ← xrefTable file
  let e ← es[k]?
  if e.inUse then
    let (num, r) ← readNat (file.drop e.offset)
    if num = k then dropPrefix? (lit " 0 obj\n") r else none
  else none

/-- `/Size` and `/Root` of the trailer, and the remaining trailer bytes. -/
def trailer (file : Bytes) : Option (Nat × Nat × Bytes) := do
  let (_, r) ← xrefTable file
  let r ← dropPrefix? (lit "trailer\n<<\n/Size ") r
  let (size, r) ← readNat r
  let r ← dropPrefix? (lit "\n/Root ") r
  let (root, r) ← readNat r
  let r ← dropPrefix? (lit " 0 R\n") r
  pure (size, root, r)

/-- The object number of `/Encrypt`, if the trailer has it. -/
def encryptRef (file : Bytes) : Option Nat := do
  let (_, _, r) ← trailer file
  let r ← dropPrefix? (lit "/Encrypt ") r
  let (id, r) ← readNat r
  let _ ← dropPrefix? (lit " 0 R\n") r
  pure id

end Verif.PdfReader
