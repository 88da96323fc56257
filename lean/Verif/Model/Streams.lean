import Verif.Model.Protect
/- The objects that carry a stream: how `/Length`, `stream`, the (possibly encrypted) data and `endstream` are
written.  Each function gives the body written when no write fails; `prot` is the document's protection with its
encryption key; `none` as a result means an error was returned.  -/
namespace Verif.Streams
open Protect

/-- Encrypt for object `objID` if the document is protected. -/
def cipher (md5 : Bytes → Bytes) (prot : Option Bytes) (objID : Nat) (data : Bytes) : Option Bytes :=
  match prot with
  | none => some data
  | some key => rc4Cip (objectkey md5 key objID) data

/-- `ContentObj.write` (content_obj.go 25-95); `data` is the (deflated if `flate`) content. -/
def content (md5 : Bytes → Bytes) (prot : Option Bytes) (objID : Nat) (flate : Bool) (data : Bytes) :
    Option Bytes := do
  let c ← cipher md5 prot objID data
  pure (lit "<<\n" ++ (if flate then lit "/Filter/FlateDecode" else []) ++ lit "/Length " ++ dec data.length ++
    lit "\n" ++ lit ">>\n" ++ lit "stream\n" ++ c ++
    (if prot.isSome then lit "\n" else if flate then lit "\n" else []) ++ lit "endstream\n")

/-- `UnicodeMap.write` (unicode_map.go 82-98). -/
def unicodeMap (md5 : Bytes → Bytes) (prot : Option Bytes) (objID : Nat) (data : Bytes) : Option Bytes := do
  let c ← cipher md5 prot objID data
  pure (lit "<<\n" ++ lit "/Length " ++ dec data.length ++ lit "\n" ++ lit ">>\n" ++ lit "stream\n" ++ c ++
    lit "endstream\n")

/-- `PdfDictionaryObj.write` (pdf_dictionary_obj.go 44-80): `z` is the deflated font, `plainLen` its plain size. -/
def fontFile (md5 : Bytes → Bytes) (prot : Option Bytes) (objID : Nat) (z : Bytes) (plainLen : Nat) :
    Option Bytes := do
  let c ← cipher md5 prot objID z
  pure (lit "<<" ++ lit "/Length " ++ dec z.length ++ lit "\n" ++ lit "/Filter /FlateDecode\n" ++ lit "/Length1 " ++
    dec plainLen ++ lit "\n" ++ lit ">>\n" ++ lit "stream\n" ++ c ++ lit "\nendstream\n")

/-- `ImageObj.write` (image_obj.go 42-86); `props` is what `writeImgProps`/`writeMaskImgProps` wrote. -/
def image (md5 : Bytes → Bytes) (prot : Option Bytes) (objID : Nat) (props data : Bytes) : Option Bytes := do
  let c ← cipher md5 prot objID data
  pure (props ++ lit "\t" ++ lit "/Length " ++ dec data.length ++ lit "\n>>\n" ++ lit "stream\n" ++ c ++
    (if prot.isSome then lit "\n" else []) ++ lit "\nendstream\n")

/-- `SMask.write`, image case (smask_obj.go 79-96). -/
def smask (md5 : Bytes → Bytes) (prot : Option Bytes) (objID : Nat) (props data : Bytes) : Option Bytes := do
  let c ← cipher md5 prot objID data
  pure (props ++ lit "/Length " ++ dec data.length ++ lit "\n>>\n" ++ lit "stream\n" ++ c ++
    (if prot.isSome then lit "\n" else []) ++ lit "\nendstream\n")

/-- `DeviceRGBObj.write` (device_rgb_obj.go 27-46). -/
def deviceRGB (md5 : Bytes → Bytes) (prot : Option Bytes) (objID : Nat) (data : Bytes) : Option Bytes := do
  let c ← cipher md5 prot objID data
  pure (lit "<<\n" ++ lit "/Length " ++ dec data.length ++ lit "\n" ++ lit ">>\n" ++ lit "stream\n" ++ c ++
    (if prot.isSome then lit "\n" else []) ++ lit "endstream\n")

/-- `TransparencyXObjectGroup.write` (transparency_xobject_group.go 57-92); `props` is the dictionary text before
`/Length`.  The stream is written unencrypted whatever the protection. -/
def xobjectGroup (_md5 : Bytes → Bytes) (_prot : Option Bytes) (_objID : Nat) (props data : Bytes) :
    Option Bytes :=
  some (props ++ lit "\t" ++ lit "/Length " ++ dec data.length ++ lit "\n" ++ lit ">>\n" ++ lit "stream\n" ++ data ++
    lit "endstream\n")

end Verif.Streams
