import Verif.Model.Doc
/-
Specification vocabulary for the object graph of a document: which references each object's `write` prints, what kind
of object each position requires (PDF 32000-1), and what is reachable from the catalog. Object numbers here are the
1-based numbers printed in the file.
-/
namespace Verif.Doc

/-- What an object is for a PDF reader. -/
inductive Kind where
  | catalog | pageTree | outlineRoot | outlineItem | resources | page | contentStream | toUnicode | fontFile
  | fontDescriptor | cidFont | font | imageXObject | imageSMask | palette | graphicsState | softMask | formXObject
  | annotation | colorSpace | imported | encryption
deriving DecidableEq, Repr

def Obj.kind : Obj → Kind
  | .catalog _ => .catalog
  | .pages _ _ => .pageTree
  | .outlines _ _ _ => .outlineRoot
  | .procset _ _ _ _ => .resources
  | .page _ _ _ => .page
  | .content _ => .contentStream
  | .unicodeMap => .toUnicode
  | .fontFile => .fontFile
  | .fontDesc _ => .fontDescriptor
  | .cidFont _ => .cidFont
  | .font _ _ _ _ _ => .font
  | .image _ _ _ _ => .imageXObject
  | .imageSMask => .imageSMask
  | .deviceRGB => .palette
  | .extGS _ => .graphicsState
  | .softMask _ => .softMask
  | .group _ => .formXObject
  | .annot _ => .annotation
  | .colorSpace _ _ => .colorSpace
  | .outline _ _ _ _ _ => .outlineItem
  | .imported => .imported
  | .encryption => .encryption

/-- The object printed as `n 0 obj` (numbers start at 1). -/
def Doc.objAt (d : Doc) (n : Nat) : Option Obj := if n = 0 then none else d.objs[n - 1]?

/-- A reference: the dictionary key it stands under, the number printed, the kind PDF requires there. -/
structure Ref where
  key : String
  num : Nat
  want : Kind
deriving DecidableEq, Repr

/-- The references an object prints, read off the `write` functions (files and lines beside each case). -/
def refs (d : Doc) : Obj → List Ref
  /- catalog_obj.go 25-29 -/
  | .catalog o => ⟨"Pages", 2, .pageTree⟩ :: o.toList.map (⟨"Outlines", ·, .outlineRoot⟩)
  /- pages_obj.go 28 -/
  | .pages kids _ => kids.map (⟨"Kids", ·, .page⟩)
  /- outlines_obj.go 34-40 -/
  | .outlines f l _ => f.toList.map (⟨"First", ·, .outlineItem⟩) ++ l.toList.map (⟨"Last", ·, .outlineItem⟩)
  /- procset_obj.go 30-60 -/
  | .procset fs cs xs gs =>
    fs.map (fun r => ⟨"Font", r.index + 1, .font⟩) ++ cs.map (fun r => ⟨"ColorSpace", r.index + 1, .colorSpace⟩) ++
    xs.map (fun i => ⟨"XObject", i + 1, .imageXObject⟩) ++ gs.map (fun i => ⟨"ExtGState", i + 1, .graphicsState⟩)
  /- page_obj.go 30-57 -/
  | .page cs ls r => ⟨"Parent", 2, .pageTree⟩ :: ⟨"Resources", r, .resources⟩ ::
    (cs.map (⟨"Contents", ·, .contentStream⟩) ++ ls.map (⟨"Annots", ·, .annotation⟩))
  /- subfont_descriptor_obj.go 37 -/
  | .fontDesc f => [⟨"FontFile2", f + 1, .fontFile⟩]
  /- cid_font_obj.go 36 -/
  | .cidFont f => [⟨"FontDescriptor", f + 1, .fontDescriptor⟩]
  /- subset_font_obj.go 42-45 -/
  | .font _ _ _ c u => [⟨"DescendantFonts", c + 1, .cidFont⟩, ⟨"ToUnicode", u + 1, .toUnicode⟩]
  /- image_obj.go 43-54, image_obj_parse.go 54-56, 76-80 (not for masks) and 92-94; the indices are 0 until set -/
  | .image _ info s r =>
    (if !info.isMask && !info.split && info.alpha then [⟨"SMask", s.getD 0 + 1, .imageSMask⟩] else []) ++
    (if info.indexed then [⟨"ColorSpace", r.getD 0 + 1, .palette⟩] else [])
  /- ext_g_state_obj.go 93-95 -/
  | .extGS (.smask m) => [⟨"SMask", m + 1, .softMask⟩]
  /- smask_obj.go 72 -/
  | .softMask g => [⟨"G", g + 1, .formXObject⟩]
  /- annot_obj.go 49-56: an unknown anchor prints nothing, an anchor set before the first page prints page -1+1 -/
  | .annot (some a) =>
    match assoc d.anchors a with
    | none => []
    | some (p, _) => [⟨"Dest", (match p with | none => 0 | some i => i + 1), .page⟩]
  /- outlines_obj.go 149-162 (neighbours are printed when >= 0) -/
  | .outline _ de p pr ne => ⟨"OutlineParent", p, .outlineRoot⟩ :: ⟨"Dest", de, .page⟩ ::
    (pr.toList.map (⟨"Prev", ·, .outlineItem⟩) ++ ne.toList.map (⟨"Next", ·, .outlineItem⟩))
  | _ => []

/-- Reachable from the trailer's `/Root 1 0 R` (gopdf.go 2302) by following references. -/
inductive FromRoot (d : Doc) : Nat → Prop
  | root : FromRoot d 1
  | step {n : Nat} {o : Obj} {r : Ref} : FromRoot d n → d.objAt n = some o → r ∈ refs d o → FromRoot d r.num

/-- A reference names an existing object of the required kind. -/
def Ref.ok (d : Doc) (r : Ref) : Prop := ∃ o, d.objAt r.num = some o ∧ o.kind = r.want

/-- The resource dictionaries: for each category the printed name's number and the object number it denotes
(procset_obj.go 30-60). -/
def Doc.fontNames (d : Doc) : List (Nat × Nat) := d.relFonts.map (fun r => (r.count + 1, r.index + 1))
def Doc.csNames (d : Doc) : List (Nat × Nat) := d.relCSs.map (fun r => (r.count + 1, r.index + 1))
def Doc.xobjNames (d : Doc) : List (Nat × Nat) := d.relXobjs.map (fun i => (i + 1, i + 1))
def Doc.gsNames (d : Doc) : List (Nat × Nat) := d.relGSs.map (fun i => (i + 1, i + 1))

/-- The name `n` has exactly one definition in a resource dictionary, and it denotes object number `m`. -/
def Denotes (names : List (Nat × Nat)) (n m : Nat) : Prop :=
  (names.filter (fun p => p.1 = n)) = [(n, m)]

end Verif.Doc

namespace Verif.Doc

/-- `GetNextObjectID` (gopdf.go 1679-1681). -/
def Doc.nextID (d : Doc) : Nat := d.objs.length + 1

/-- What identifies an object to the caller: its kind and the keys it was created with (image id; font family, style and
resource number; colour space name and resource number; graphics state key; anchor name; bookmark title, destination;
the objects it was created for). Lists that grow later (kids, contents, annotations, entries) are not part of it. -/
def Obj.label : Obj → Kind × List Nat
  | .font f s c cid u => (.font, [f, s, c, cid, u])
  | .image id m _ _ => (.imageXObject, [id, m.isMask.toNat, m.alpha.toNat, m.indexed.toNat, m.split.toNat])
  | .extGS (.alpha a b) => (.graphicsState, [0, a, b])
  | .extGS (.smask i) => (.graphicsState, [1, i])
  | .softMask g => (.softMask, [g])
  | .colorSpace n c => (.colorSpace, [n, c])
  | .annot none => (.annotation, [])
  | .annot (some a) => (.annotation, [a])
  | .outline t d p _ _ => (.outlineItem, [t, d, p])
  | .fontDesc f => (.fontDescriptor, [f])
  | .cidFont f => (.cidFont, [f])
  | o => (o.kind, [])

end Verif.Doc
