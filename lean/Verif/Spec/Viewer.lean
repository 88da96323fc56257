import Verif.Spec.ContentReader
import Verif.Spec.FileReader
/-
Independent specification: a viewer that opens a file and reads, for every page, the page's dictionary and the operators of its
content; and what it means that the resources an operator names are found in the file (ISO 32000-1 §7.8.3).
-/
namespace Verif.Viewer
open PdfObject FileReader
open Paint (Op Colour)

/-- For every page of the file: its dictionary and the bytes of its content. -/
def pagesWithContent (c : Decoder) (file : Bytes) : Option (List (Val × Bytes)) :=
  (pages file).bind fun ps => sequence (ps.map fun p => (contents c file p).map fun b => (p, b))

/-- For every page of the file: its dictionary and its operators. -/
def view (c : Decoder) (file : Bytes) : Option (List (Val × List Op)) :=
  (pagesWithContent c file).bind fun l => sequence (l.map fun p => (ContentReader.operators p.2).map fun o => (p.1, o))

/-- The object a name denotes in a category of the page's resources. -/
def Finds (file : Bytes) (page : Val) (category : String) (pre : String) (n : Nat) (good : Val → Prop) : Prop :=
  ∃ m v data, resource file page category (lit pre ++ dec n) = some m ∧ object file m = some (v, data) ∧ good v

/-- A dictionary with the given name as value. -/
def Has (key value : String) (v : Val) : Prop := v.get (lit key) = some (.name (lit value))

/-- A colour space (§8.6.6.4). -/
def Separation (v : Val) : Prop := ∃ l, v = .arr (.name (lit "Separation") :: l)

/-- The resources an operator names are in the file, with the right type: fonts, graphics states, images, colour spaces. -/
def Resolves (file : Bytes) (page : Val) : Op → Prop
  | .Tf n _ => Finds file page "Font" "F" n (Has "Type" "Font")
  | .gs n => Finds file page "ExtGState" "GS" n (Has "Type" "ExtGState")
  | .image n => Finds file page "XObject" "I" n (Has "Subtype" "Image")
  | .strokeColour (.named n) | .fillColour (.named n) => Finds file page "ColorSpace" "CS" n Separation
  | _ => True

/-! ### Text -/

/-- The codes in the array of `TJ`. -/
def codeOf : TextShow.Item → Option Nat
  | .code g => some g
  | .adjust _ => none

/-- The codes shown, each with the number of its font: `Tf` sets the font, `q` saves it and `Q` restores it (§8.4.2, 9.3.1, 9.4.3). -/
def shown : Option Nat → List (Option Nat) → List Op → List (Nat × Nat)
  | _, _, [] => []
  | f, st, .q :: l => shown f (f :: st) l
  | f, st, .Q :: l => shown (st.head?.getD f) st.tail l
  | _, st, .Tf n _ :: l => shown (some n) st l
  | f, st, .TJ items :: l =>
    (match f with
    | some n => (items.filterMap codeOf).map fun g => (n, g)
    | none => []) ++ shown f st l
  | f, st, _ :: l => shown f st l

/-- A viewer reads the code `p.2`, shown with font `p.1` on the page, as the character `r`: the font is a font of the file with the
given name, and its `/ToUnicode` map gives the character (§9.10.2). -/
def ReadAs (c : Decoder) (file : Bytes) (page : Val) (p : Nat × Nat) (name : Bytes) (r : Nat) : Prop :=
  ∃ m v data cmap, resource file page "Font" (lit "F" ++ dec p.1) = some m ∧ object file m = some (v, data) ∧
    v.get (lit "Type") = some (.name (lit "Font")) ∧ v.get (lit "BaseFont") = some (.name name) ∧
    toUnicode c file m = some cmap ∧ TextShow.ToText cmap p.2 [r]

end Verif.Viewer
