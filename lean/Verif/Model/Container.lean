import Verif.Model.CharMap
/-
Fonts shared through a `FontContainer` (font_container.go) by several documents.  What Go keeps behind pointers (the map of used
characters, the backing array of `addCharsBuff`) is kept here in a heap, so that documents could share it.  The parsed font file
(`ttfp`) is behind pointers too, but no code writes to it after parsing (pdf_dictionary_obj.go, subset_font_obj.go and
cache_content_text.go only read it), so it is a value here (`CharSource` for what `AddChars` reads; `F` for the rest).  `AddChars`
is split in its steps, so that calls on different documents can be interleaved rune by rune, as on several goroutines.
Not modelled: the caller overwriting the bytes it gave to `AddTTFFontData` (the library keeps them, ttfparser.go 321).
-/
namespace Verif.Container
open TTF

/-- `SubsetFontObj` (subset_font_obj.go 18-29), without the object numbers, which are document-local (Model/Doc.lean).
`charMap` and `buff` are addresses (`none`: nil), `file` the parsed file, `kern` the `funcKernOverride`. -/
structure FontObj (F K : Type) where
  file : F
  src : CharSource
  family : Nat
  charMap : Option Nat
  kern : Option K
  buff : Option Nat

/-- A document: its fonts in the order added, what calls of `AddChars` returned so far, last first. -/
structure Doc (F K : Type) where
  fonts : List (FontObj F K)
  log : List (Res (List Nat))

/-- Everything in memory: the container's map (font_container.go 15-17; newest first), the documents, and the heap: character
maps and buffers, both allocated by counting `next` up. -/
structure World (F K : Type) where
  container : List (Nat × FontObj F K)
  docs : Nat → Doc F K
  maps : Nat → CharMap
  buffs : Nat → List Nat
  next : Nat

variable {F K : Type}

/-- Nothing done yet. -/
def World.empty : World F K := ⟨[], fun _ => ⟨[], []⟩, fun _ => .empty, fun _ => [], 0⟩

/-- Calls.  `store` is any of the container's `AddTTFFont…` that succeeds; `add` the same on a document. -/
inductive Op (F K : Type) where
  | store (family : Nat) (file : F) (src : CharSource)
  | load (d : Nat) (family : Nat)
  | add (d : Nat) (family : Nat) (file : F) (src : CharSource)
  | kern (d : Nat) (family : Nat) (fn : K)
  | begin (d i : Nat)
  | char (d i r : Nat)
  | finish (d i : Nat)

/-- The document a call is made on; `none` for the container. -/
def Op.doc : Op F K → Option Nat
  | .store .. => none
  | .load d _ => some d
  | .add d _ _ _ => some d
  | .kern d _ _ => some d
  | .begin d _ => some d
  | .char d _ _ => some d
  | .finish d _ => some d

/-- Replace a value of a function. -/
def upd {α : Type} (f : Nat → α) (a : Nat) (v : α) : Nat → α := fun x => if x = a then v else f x

/-- A new `SubsetFontObj` with options, family and file set (font_container.go 44-50, 62-68: `var subsetFont SubsetFontObj`, so
the pointers are nil). -/
def freshFont (family : Nat) (file : F) (src : CharSource) : FontObj F K := ⟨file, src, family, none, none, none⟩

/-- `init` (subset_font_obj.go 31-36): a new map, at address `w.next`. -/
def initFont (w : World F K) (f : FontObj F K) : World F K × FontObj F K :=
  ({ w with maps := upd w.maps w.next .empty, next := w.next + 1 }, { f with charMap := some w.next, kern := none })

/-- `setSubsetFontObject` (gopdf.go 1779-1825): the document gets the font. -/
def addFont (w : World F K) (d : Nat) (f : FontObj F K) : World F K :=
  { w with docs := upd w.docs d { (w.docs d) with fonts := (w.docs d).fonts ++ [f] } }

/-- `fonts.Store` (font_container.go 51, 69): the family's previous font is replaced. -/
def storeFont (c : List (Nat × FontObj F K)) (family : Nat) (f : FontObj F K) : List (Nat × FontObj F K) :=
  (family, f) :: c.filter (fun e => e.1 != family)

/-- `fonts.Load` (font_container.go 75). -/
def loadFont (c : List (Nat × FontObj F K)) (family : Nat) : Option (FontObj F K) :=
  (c.find? (fun e => e.1 == family)).map (·.2)

/-- The first font of the family (gopdf.go 1848-1862) gets the function. -/
def setKern (fn : K) (family : Nat) : List (FontObj F K) → List (FontObj F K)
  | [] => []
  | f :: rest => if f.family = family then { f with kern := some fn } :: rest else f :: setKern fn family rest

/-- Write to the buffer behind a slice: in place if there is one (an `append` that fits), else in a new one. -/
def writeBuff (w : World F K) (d i : Nat) (f : FontObj F K) (v : List Nat) : World F K :=
  match f.buff with
  | some b => { w with buffs := upd w.buffs b v }
  | none =>
    { w with
      docs := upd w.docs d { (w.docs d) with fonts := (w.docs d).fonts.set i { f with buff := some w.next } }
      buffs := upd w.buffs w.next v
      next := w.next + 1 }

/-- The runes in the buffer. -/
def readBuff (w : World F K) (f : FontObj F K) : List Nat := (f.buff.map w.buffs).getD []

/-- A call returns. -/
def logResult (w : World F K) (d : Nat) (r : Res (List Nat)) : World F K :=
  { w with docs := upd w.docs d { (w.docs d) with log := r :: (w.docs d).log } }

/-- One turn of the loop of `AddChars` on font `f` (subset_font_obj.go 139-163).  A nil map panics. -/
def charStep (w : World F K) (d i : Nat) (f : FontObj F K) (r : Nat) : World F K :=
  match f.charMap with
  | none => logResult w d (.error .panic)
  | some a =>
    match addChar f.src (w.maps a) r with
    | .error e => logResult w d (.error e)
    | .ok (m, r') => writeBuff { w with maps := upd w.maps a m } d i f (readBuff w f ++ [r'])

/-- One call, or one step of `AddChars`: `begin` is subset_font_obj.go 138, `finish` 164 (`string` copies the runes).  On a font
the document has not got nothing happens. -/
def step (w : World F K) : Op F K → World F K
  | .store family file src => { w with container := storeFont w.container family (freshFont family file src) }
  | .load d family =>
    match loadFont w.container family with
    | none => w
    | some f => addFont (initFont w f).1 d (initFont w f).2
  | .add d family file src => addFont (initFont w (freshFont family file src)).1 d (initFont w (freshFont family file src)).2
  | .kern d family fn => { w with docs := upd w.docs d { (w.docs d) with fonts := setKern fn family (w.docs d).fonts } }
  | .begin d i =>
    match (w.docs d).fonts[i]? with
    | none => w
    | some f => match f.buff with
      | none => w
      | some b => { w with buffs := upd w.buffs b [] }
  | .char d i r =>
    match (w.docs d).fonts[i]? with
    | none => w
    | some f => charStep w d i f r
  | .finish d i =>
    match (w.docs d).fonts[i]? with
    | none => w
    | some f => logResult w d (.ok ((readBuff w f).map goRune))

/-- A history. -/
def run (w : World F K) (ops : List (Op F K)) : World F K := ops.foldl step w

end Verif.Container
