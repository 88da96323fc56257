import Verif.Spec.PdfObject
import Verif.Spec.SecurityHandler
/-
Independent specification: from a file to the contents of its pages (ISO 32000-1 §7.5.5, §7.7.2, §7.7.3, §7.8.2): trailer,
catalog, page tree, pages, content streams.  Streams are decrypted with the given key (§7.6.2) and decompressed with a
function given as a parameter.
-/
namespace Verif.FileReader
open PdfObject

/-- How streams are decoded. -/
structure Decoder where
  md5 : Bytes → Bytes
  /-- the encryption key, for a protected document -/
  key : Option Bytes
  inflate : Bytes → Option Bytes

/-- Decryption of a string or stream of object `n`. -/
def Decoder.decrypt (c : Decoder) (n : Nat) (data : Bytes) : Bytes := match c.key with
  | none => data
  | some k => SecurityHandler.decrypt c.md5 k n data

/-- Decryption and `/Filter`. -/
def Decoder.decode (c : Decoder) (n : Nat) (v : Val) (data : Bytes) : Option Bytes := match v.get (lit "Filter") with
  | none => some (c.decrypt n data)
  | some (.name f) => if f = lit "FlateDecode" then c.inflate (c.decrypt n data) else none
  | _ => none

/-- The decoded data of stream `n`. -/
def stream (c : Decoder) (file : Bytes) (n : Nat) : Option Bytes :=
  (object file n).bind fun r => r.2.bind (c.decode n r.1)

/-- All or nothing. -/
def sequence {α : Type} : List (Option α) → Option (List α)
  | [] => some []
  | x :: xs => x.bind fun x => (sequence xs).map (x :: ·)

def refOf : Val → Option Nat
  | .ref n => some n
  | _ => none

/-- `/Contents`: absent, a stream, or an array of streams. -/
def contents (c : Decoder) (file : Bytes) (page : Val) : Option Bytes := match page.get (lit "Contents") with
  | none => some []
  | some (.ref n) => stream c file n
  | some (.arr l) => (sequence (l.map fun v => (refOf v).bind (stream c file))).map List.flatten
  | _ => none

/-- An entry of a dictionary that refers to an object of the given type. -/
def follow (file : Bytes) (v : Val) (key type : String) : Option (Val × Option Bytes) :=
  ((v.get (lit key)).bind refOf).bind fun n => (object file n).bind fun r =>
    match r.1.get (lit "Type") with
    | some (.name t) => if t = lit type then some r else none
    | _ => none

/-- The page tree: trailer, catalog, pages. -/
def pageTree (file : Bytes) : Option Val :=
  (trailerDict file).bind fun t => (follow file t "Root" "Catalog").bind fun catalog =>
    (follow file catalog.1 "Pages" "Pages").map (·.1)

/-- The pages, in order. -/
def pages (file : Bytes) : Option (List Val) :=
  (pageTree file).bind fun tree => match tree.get (lit "Kids") with
    | some (.arr l) => sequence (l.map fun v => (refOf v).bind fun n => (object file n).bind fun r =>
        match r.1.get (lit "Type") with
        | some (.name t) => if t = lit "Page" then some r.1 else none
        | _ => none)
    | _ => none

/-- What is on each page. -/
def pageContents (c : Decoder) (file : Bytes) : Option (List Bytes) :=
  (pages file).bind fun ps => sequence (ps.map (contents c file))

/-! ### Opening a protected file -/

def strOf : Val → Option Bytes
  | .str b => some b
  | _ => none

def intOf : Val → Option Int
  | .num q => if q.den = 1 then some q.num else none
  | _ => none

def isNum (n : Nat) : Val → Bool
  | .num q => q = n
  | _ => false

def isName (s : String) : Val → Bool
  | .name b => b = lit s
  | _ => false

/-- The encryption dictionary of the standard security handler, revision 2 (§7.6.3.2, tables 20 and 21), and the first
element of `/ID`. -/
def encDict (file : Bytes) (t : Val) (n : Nat) : Option SecurityHandler.EncDict :=
  (object file n).bind fun r =>
    if (r.1.get (lit "Filter")).any (isName "Standard") ∧ (r.1.get (lit "V")).any (isNum 1) ∧ (r.1.get (lit "R")).any (isNum 2) then
      ((r.1.get (lit "O")).bind strOf).bind fun o => ((r.1.get (lit "U")).bind strOf).bind fun u =>
        ((r.1.get (lit "P")).bind intOf).bind fun p => match t.get (lit "ID") with
          | some (.arr (.str id0 :: _)) => some ⟨o, u, p, id0⟩
          | _ => none
    else none

/-- The encryption key a password gives: first as user password, then as owner password.  `some none`: the file is not
protected. -/
def openWith (md5 : Bytes → Bytes) (pass : Bytes) (file : Bytes) : Option (Option Bytes) :=
  (trailerDict file).bind fun t => match t.get (lit "Encrypt") with
    | none => some none
    | some (.ref n) => (encDict file t n).bind fun e =>
      if SecurityHandler.authUser md5 e pass then some (some (SecurityHandler.fileKey md5 e pass))
      else if SecurityHandler.authOwner md5 e pass then
        some (some (SecurityHandler.fileKey md5 e (SecurityHandler.userFromOwner md5 e pass)))
      else none
    | _ => none

/-- Open a file with a password and read its pages. -/
def read (md5 : Bytes → Bytes) (inflate : Bytes → Option Bytes) (pass : Bytes) (file : Bytes) : Option (List Bytes) :=
  (openWith md5 pass file).bind fun key => pageContents ⟨md5, key, inflate⟩ file

/-! ### Resources, fonts, images -/

/-- The object a resource name denotes on a page (§7.8.3). -/
def resource (file : Bytes) (page : Val) (category : String) (name : Bytes) : Option Nat :=
  ((page.get (lit "Resources")).bind refOf).bind fun n => (object file n).bind fun r =>
    (r.1.get (lit category)).bind fun d => (d.get name).bind refOf

/-- The descendant of a Type 0 font (§9.7.6). -/
def descendant (file : Bytes) (n : Nat) : Option Val :=
  (object file n).bind fun f => match f.1.get (lit "DescendantFonts") with
    | some (.arr [.ref m]) => (object file m).map (·.1)
    | _ => none

/-- The embedded font program of a Type 0 font with a TrueType descendant: font descriptor, `/FontFile2` (§9.9). -/
def fontProgram (c : Decoder) (file : Bytes) (n : Nat) : Option Bytes :=
  (descendant file n).bind fun cid => ((cid.get (lit "FontDescriptor")).bind refOf).bind fun m => (object file m).bind fun desc =>
    ((desc.1.get (lit "FontFile2")).bind refOf).bind (stream c file)

/-- The `/ToUnicode` character map of a font (§9.10.3). -/
def toUnicode (c : Decoder) (file : Bytes) (n : Nat) : Option Bytes :=
  (object file n).bind fun f => ((f.1.get (lit "ToUnicode")).bind refOf).bind (stream c file)

/-- `/W` when every entry gives one width (§9.7.4.3). -/
def widths : List Val → Option (List (Nat × Nat))
  | [] => some []
  | .num c :: .arr [.num w] :: l => (ContentReader.nat c).bind fun c => (ContentReader.nat w).bind fun w => (widths l).map ((c, w) :: ·)
  | _ => none

/-- The widths of the glyphs of a Type 0 font. -/
def fontWidths (file : Bytes) (n : Nat) : Option (List (Nat × Nat)) :=
  (descendant file n).bind fun cid => match cid.get (lit "W") with
    | some (.arr l) => widths l
    | _ => none

/-- The data of an image as stored, decrypted (its filter belongs to the image format). -/
def imageData (c : Decoder) (file : Bytes) (n : Nat) : Option Bytes :=
  (object file n).bind fun r => r.2.map (c.decrypt n)

/-- The data of the soft mask of an image (§11.6.5.3). -/
def softMaskData (c : Decoder) (file : Bytes) (n : Nat) : Option Bytes :=
  (object file n).bind fun r => ((r.1.get (lit "SMask")).bind refOf).bind (imageData c file)

/-- The palette of an image in an indexed colour space (§8.6.6.3). -/
def palette (c : Decoder) (file : Bytes) (n : Nat) : Option Bytes :=
  (object file n).bind fun r => match r.1.get (lit "ColorSpace") with
    | some (.arr [.name _, .name _, .num _, .ref m]) => imageData c file m
    | _ => none

/-! ### Following references -/

/-- Objects a reader meets: from the trailer's references on. -/
inductive Reaches (file : Bytes) : Nat → Prop
  | trailer {t : Val} {n : Nat} : trailerDict file = some t → n ∈ t.refs → Reaches file n
  | step {n m : Nat} {r : Val × Option Bytes} : Reaches file n → object file n = some r → m ∈ r.1.refs → Reaches file m

end Verif.FileReader
