import Verif.Spec.Used
import Verif.Spec.Typeset
/- Which calls return an error, in terms of the calls before. -/
namespace Verif.Doc

/-- No page, no content, no current setting, no bookmark and no anchor has changed since `b`: every object is the same, except for the
resource dictionary (which may have new entries); there may be new objects. -/
structure Quiet (b d : Doc) : Prop where
  objs : ∀ i o, b.objs[i]? = some o → i ≠ procIdx → d.objs[i]? = some o
  curPage : d.curPage = b.curPage
  curFont : d.curFont = b.curFont
  curTr : d.curTr = b.curTr
  lastOutline : d.lastOutline = b.lastOutline
  anchors : d.anchors = b.anchors

end Verif.Doc

namespace Verif.Program

/-- The call returns an error if it is made after the calls `prog`: SetFont if no font was added under the family and the style without
its underline bit; SetColorSpace if no colour space was added under the name, AddColorSpace if one was; AddTTFFont if it does not take
the file; an image if it, or its mask, cannot be decoded. -/
def Fails (prog : List Call) : Call → Prop
  | .setFont f st _ => ∀ st', Call.object (.addFont f st' true) ∈ prog → st' ≠ if st / 4 % 2 = 1 then st - 4 else st
  | .setColourSpace n => Call.object (.addColorSpace n) ∉ prog
  | .object (.addColorSpace n) => Call.object (.addColorSpace n) ∈ prog
  | .object (.addFont _ _ ok) => ok = false
  | .image img _ => img.parsed = none
  | .imageOpt img _ _ mask => img.parsed = none ∨ ∃ m, mask = some m ∧ m.1.parsed = none
  | _ => False

/-- Pictures with the same data can all be decoded, or none. -/
def Coherent (prog : List Call) : Prop :=
  ∀ c ∈ prog, ∀ c' ∈ prog, ∀ i ∈ imagesOf c, ∀ j ∈ imagesOf c', i.id = j.id → i.parsed.isSome = j.parsed.isSome

end Verif.Program

namespace Verif.Typeset

/-- The same for programs with font files. -/
def Fails (prog : List Call) : Call → Prop
  | .addFont _ _ face => accepted face = false
  | .other (.setFont f st _) => pick (prog.foldl registerFont []) f st = none
  | .other (.setColourSpace n) => Call.other (.object (.addColorSpace n)) ∉ prog
  | .other (.object (.addColorSpace n)) => Call.other (.object (.addColorSpace n)) ∈ prog
  | .other (.image img _) => img.parsed = none
  | .other (.imageOpt img _ _ mask) => img.parsed = none ∨ ∃ m, mask = some m ∧ m.1.parsed = none
  | _ => False

end Verif.Typeset
