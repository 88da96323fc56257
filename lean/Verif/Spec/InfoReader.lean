import Verif.Spec.FileReader
import Verif.Spec.PdfDate
import Verif.Spec.Utf16
/- Independent specification: the document information of a file (ISO 32000-1 §14.3.3, §7.9.2.2, §7.9.4). -/
namespace Verif.FileReader
open PdfObject

/-- The information dictionary (§7.5.5 wants a reference; readers accept a dictionary in the trailer). -/
def info (file : Bytes) : Option Val := (trailerDict file).bind fun t => t.get (lit "Info")

/-- A text string in UTF-16. -/
def text : Val → Option (List Nat)
  | .str b => (dropPrefix? [0xFE, 0xFF] b).bind fun b => (Utf16.units b).bind Utf16.decodeUnits
  | _ => none

/-- The text of an information entry; an absent one is empty. -/
def infoText (file : Bytes) (key : String) : Option (List Nat) :=
  (info file).bind fun i => match i.get (lit key) with
    | none => some []
    | some v => text v

/-- The creation date. -/
def creationDate (file : Bytes) : Option PdfDate.Date :=
  (info file).bind fun i => ((i.get (lit "CreationDate")).bind strOf).bind PdfDate.parse

end Verif.FileReader
