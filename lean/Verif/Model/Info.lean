import Verif.Base.Hex
/- Model of the document information dictionary: gopdf.go 2318-2347, 2378-2393. -/
namespace Verif.Info

/-- `encodeUtf8` (gopdf.go 2378-2388): each rune as `%X`, left-padded to four characters.
A Go string is modelled by the list of runes `range` yields. -/
def encodeUtf8 (s : List Nat) : Bytes := s.flatMap fun r => padL 4 (hexUp r)

/-- `PdfInfo` (pdf_info_obj.go 6-13); `creationDate` is the already formatted date (`infodate`), `none` for the
zero time. -/
structure PdfInfo where
  title : List Nat := []
  author : List Nat := []
  subject : List Nat := []
  creator : List Nat := []
  producer : List Nat := []
  creationDate : Option Bytes := none

/-- One optional line of `writeInfo`. -/
def infoLine (key : String) (s : List Nat) : List Bytes :=
  if s = [] then [] else [lit "/" ++ lit key ++ lit " <FEFF" ++ encodeUtf8 s ++ lit ">\n"]

/-- `writeInfo` (gopdf.go 2318-2347), as the list of chunks written. -/
def writeInfo (i : PdfInfo) : List Bytes :=
  [lit "/Info <<\n"] ++ infoLine "Author" i.author ++ infoLine "Title" i.title ++ infoLine "Subject" i.subject
  ++ infoLine "Creator" i.creator ++ infoLine "Producer" i.producer
  ++ (match i.creationDate with
      | some d => [lit "/CreationDate(D:" ++ d ++ lit ")\n"]
      | none => [])
  ++ [lit " >>\n"]

end Verif.Info
