import Verif.Model.CompressLevel
import Verif.Model.Layout
/-
The life of one `GoPdf` object: `Start` may be called again, to write another document with the same object.  What a second `Start`
sets and what it leaves as it was (gopdf.go 883-918 `start`, 2134-2184 `init`).

Simplifications:
* `Start` comes with the margins set right after it (SetMargins);
* a call that panics ends the life;
* the importer (gofpdi) and the placeholder texts, both replaced by `Start` (gopdf.go 2182, 916), are left out; an importer given to
  StartWithImporter is the caller's.
-/
namespace Verif.Restart

/-- What `start` does to the objects and the bookkeeping: every field set is listed; `numOfPagesObj` is not among them. -/
def doc (d : Doc.Doc) (prot : Bool) : Doc.Doc :=
  { d with
    /- gopdf.go 2135; the four basic objects 888-910 -/
    objs := [.catalog none, .pages [] 0, .outlines none none 0, .procset [] [] [] []],
    /- gopdf.go 2167 -/
    content := none,
    /- `gp.curr = Current{}` and after (gopdf.go 2153-2161): the current page, font, transparency, the counters and the caches -/
    curPage := none, fontCount := 0, csCount := 0, imgs := [], trs := [], gss := [], masks := [], curFont := none, curTr := none,
    /- gopdf.go 2161 -/
    anchors := [],
    /- `new(OutlinesObj)` (gopdf.go 896-899) -/
    lastOutline := none,
    /- gopdf.go 2138, 912-914 -/
    prot := prot, encId := 0 }

/-- The settings and the place on the page (`gp.curr = Current{}`, gopdf.go 2153-2172; the margins 2143-2149).  X and Y are those
the first AddPage sets; nothing can be drawn before. -/
def content (c : Content.St) (ml mt : ℚ) : Content.St :=
  { c with
    cur := { x := ml, y := mt, setXCount := 0, font := 0, fontSize := 0, fontStyle := 0, charSpacing := 0, colour := none, grayFill := 0, inColour := false, lineWidth := 1, ext := none, pageHeight := 0 },
    pages := [[]], page := 0, marginLeft := ml, marginTop := mt }

/-- The fonts go with the objects (gopdf.go 2135).  The header and footer functions are not among the fields `init` and `start` set,
nor is the number of pages.  Calls and their numbers are counted from the last `Start` on. -/
def layout (s : Layout.St) (prot : Bool) (ml mt : ℚ) : Layout.St :=
  { s with log := { s := { prog := { doc := doc s.log.s.prog.doc prot, content := content s.log.s.prog.content ml mt, next := 1 }, fonts := fun _ => none }, calls := [], drawn := [] } }

/-- The object: the document, the information (`isUseInfo`, `info`), the compression level. -/
structure Lib where
  lay : Layout.St
  info : Option Info.PdfInfo
  level : Int

inductive Act where
  /-- Start, StartWithImporter, with the margins then set -/
  | start (prot : Bool) (marginLeft marginTop : ℚ)
  | call (c : Layout.Call)
  /-- SetInfo (gopdf.go 1957-1960) -/
  | setInfo (i : Info.PdfInfo)
  /-- SetCompressLevel, SetNoCompression -/
  | compression (c : CompressLevel.Call)
  /-- WritePdf, Write, WriteTo, GetBytesPdf, GetBytesPdfReturnErr -/
  | write

/-- Writing puts the document in its final form (Model/Doc.lean, `compile`). -/
def written (s : Layout.St) : Layout.St :=
  { s with log := { s.log with s := { s.log.s with prog := { s.log.s.prog with doc := (Doc.step s.log.s.prog.doc .compile).1 } } } }

/-- One call.  `none`: a panic. -/
def step (base : Content.Env) (n : Nat) (s : Lib) : Act → Option Lib
  /- gopdf.go 2139-2140 (information), 2175 (compression level) -/
  | .start prot ml mt => some { lay := layout s.lay prot ml mt, info := none, level := CompressLevel.initial }
  | .call c => (Layout.step base n s.lay c).map fun l => { s with lay := l }
  | .setInfo i => some { s with info := some i }
  | .compression c => some { s with level := CompressLevel.step s.level c }
  | .write => some { s with lay := written s.lay }

def steps (base : Content.Env) (n : Nat) : Lib → List Act → Option Lib
  | s, [] => some s
  | s, a :: rest => (step base n s a).bind fun s' => steps base n s' rest

/-- A `GoPdf{}`. -/
def new : Lib := ⟨Layout.start false 0 0, none, CompressLevel.initial⟩

/-- `GetNumberOfPages` (gopdf.go 1685-1687). -/
def Lib.pages (s : Lib) : Nat := s.lay.log.s.prog.doc.numPages

/-- The bytes WritePdf, Write, WriteTo and GetBytesPdf give (gopdf.go 1043-1066), `e` being what of the document is not drawn and
`deflate` the compression at a level (content_obj.go 29-50). -/
def Lib.file (e : Objects.Env) (base : Content.Env) (deflate : Int → Bytes → Bytes) (s : Lib) : Bytes :=
  Objects.file
    { e with
      render := Program.render (s.lay.log.s.env base) s.lay.log.drawn s.lay.log.s.prog,
      deflate := if CompressLevel.isFlate s.level then some (deflate s.level) else none,
      info := s.info }
    (Doc.step s.lay.log.s.prog.doc .compile).1

end Verif.Restart
