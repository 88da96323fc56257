import Verif.Props.FileExample
import Verif.Props.FileGraph
/- The theorems of Props/FileGraph.lean and the opening of a protected file on concrete documents. -/
set_option maxRecDepth 10000
namespace Verif.Props
open Doc Objects ObjectValue PdfObject FileReader

/-- A page with a text, an image with palette and alpha channel, and a link to an anchor. -/
def linkedHistory : List Op :=
  [.addFont 1 0 true, .addPage, .setFont 1 0, .text 7, .image 8 ⟨5, some (true, true)⟩, .setAnchor 1 100, .internalLink 1]

def linked : Doc := exec (start true) (linkedHistory ++ [.compile])

/-- The hypotheses of `references_resolve`, `resources_in_file`, `drawing_resolves`, `font_in_file` and `image_in_file` hold for it. -/
example : Compiled sampleEnv true linkedHistory linked :=
  ⟨rfl, by decide +kernel, sampleEnv_sound, sampleEnv_plain, by decide +kernel⟩

instance (d : Doc) (o : Obj) : Decidable (Written d o) := by
  cases o <;> unfold Written <;> try infer_instance
  next a => cases a <;> simp only <;> infer_instance

example : (∀ o ∈ linked.objs, Written linked o) := by decide +kernel

/-- A mask with a palette. -/
def badMask : Obj → Bool
  | .image _ m _ _ => m.isMask && m.indexed
  | _ => false

/-- A bookmark without a page. -/
def badOutline : Obj → Bool
  | .outline _ de _ _ _ => de = 0
  | _ => false

example : linked.objs.any badMask = false ∧ linked.objs.any badOutline = false ∧ linked.anchors.all (fun a => a.2.1.isSome) = true := by
  decide +kernel

/-- Font 9 and the image 12 of the document. -/
example : (linked.objAt 9).map (·.kind) = some .font ∧ linked.xobjNames = [(12, 12)] := by decide +kernel

/-- A protected document made by `SetProtection`: user password `user`, owner password `owner`. -/
def sampleProt : Protect.PDFProtection where
  uValue := [42, 143, 215, 60, 182, 66, 34, 138, 3, 223, 195, 227, 226, 138, 189, 80, 102, 171, 100, 82, 220, 78, 74, 1, 248, 192, 212, 49, 14, 83, 93, 164]
  oValue := [103, 245, 149, 46, 119, 237, 47, 135, 225, 167, 183, 247, 251, 46, 252, 22, 93, 206, 178, 185, 73, 226, 244, 56, 58, 192, 100, 98, 101, 217, 177, 253]
  pValue := 18446744073709551556#64
  encryptionKey := [255, 255, 255, 196, 253]

deriving instance DecidableEq for Protect.PDFProtection

/-- Its environment. -/
def protEnv : Env :=
  { sampleEnv with key := some sampleProt.encryptionKey, o := sampleProt.oValue, u := sampleProt.uValue, p := sampleProt.pValue.toInt }

theorem sampleProt_made : Protect.setProtection toyMd5 [] 4#64 (lit "user") (lit "owner") = some sampleProt := by
  decide +kernel

theorem protEnv_sound : Sound protEnv := by
  refine ⟨fun b => by simp [protEnv, sampleEnv, toyMd5], ?_⟩
  intro k hk
  simp only [protEnv, Option.some.injEq] at hk
  subst hk
  decide +kernel

theorem protEnv_plain : PlainNames protEnv :=
  ⟨sampleEnv_plain.family, sampleEnv_plain.csName, sampleEnv_plain.title, sampleEnv_plain.templates, sampleEnv_plain.template⟩

/-- One page with one drawing. -/
def smallHistory : List Op := [.addPage, .draw 7 true]

theorem small_size : (file protEnv (exec (start true) (smallHistory ++ [.compile]))).length < 10 ^ 10 := by decide +kernel

/-- The user password opens it … -/
example : openWith toyMd5 (lit "user") (file protEnv (exec (start true) (smallHistory ++ [.compile]))) = some (some sampleProt.encryptionKey) :=
  file_opens_with_user_password protEnv protEnv_sound protEnv_plain sampleEnv_info smallHistory (by decide +kernel) small_size [] 4#64
    (by decide) _ _ sampleProt sampleProt_made rfl rfl rfl rfl

/-- … and the key decrypts its page. -/
example : pageContents ⟨toyMd5, some sampleProt.encryptionKey, some⟩ (file protEnv (exec (start true) (smallHistory ++ [.compile]))) =
    some [lit "7\n"] := by decide +kernel

/-- **C55** Compiled a second time, the page's dictionary has two references for `/Contents` and cannot be read. -/
theorem compiled_twice_file_fails : (object (file protEnv (exec (start true) (smallHistory ++ [.compile]))) 5).isSome = true ∧
    object (file protEnv (exec (start true) (smallHistory ++ [.compile, .compile]))) 5 = none := by decide +kernel

end Verif.Props
