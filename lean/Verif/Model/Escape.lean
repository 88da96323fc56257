import Verif.Base.Bytes
/- Model of literal string escaping: encryption_obj.go 36-43 and annot_obj.go 39-42. -/
namespace Verif.Escape

/-- Go's `strings.Replace(s, old, new, -1)` for a one-byte `old`. -/
def replaceByte (old : UInt8) (new : Bytes) (s : Bytes) : Bytes :=
  s.flatMap fun b => if b = old then new else [b]

/-- `EncryptionObj.escape` (encryption_obj.go 36-43) and, identically, the URL escaping in
`annotObj.writeExternalLink` (annot_obj.go 39-42): four replacements, one after the other. -/
def escape (s : Bytes) : Bytes :=
  let s := replaceByte 92 [92, 92] s
  let s := replaceByte 40 [92, 40] s
  let s := replaceByte 41 [92, 41] s
  let s := replaceByte 13 [92, 114] s
  s

end Verif.Escape
