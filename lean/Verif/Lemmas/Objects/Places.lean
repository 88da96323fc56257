import Verif.Lemmas.Objects.Lookup
/- Looking up entries of pages, links and bookmarks. -/
set_option maxRecDepth 10000
namespace Verif.ObjectValue
open Doc Objects PdfObject

theorem get_page_annots (e : Env) (d : Doc) (i : Nat) (cs ls : List Nat) (r : Nat) :
    (objVal e d i (.page cs ls r)).get (lit "Annots") = if ls = [] then none else some (ObjectValue.refs ls) := by
  simp only [objVal]
  by_cases h : ls = []
  · simp only [h, if_true]
    cases cs.head? <;> cases e.pageSize i <;> cases e.trimBox i <;> simp only [opt] <;> lookup
  · simp only [h, if_false]
    lookup

theorem get_page_parent (e : Env) (d : Doc) (i : Nat) (cs ls : List Nat) (r : Nat) :
    (objVal e d i (.page cs ls r)).get (lit "Parent") = some (.ref 2) := by
  simp only [objVal]; lookup

theorem get_page_media (e : Env) (d : Doc) (i : Nat) (cs ls : List Nat) (r : Nat) :
    (objVal e d i (.page cs ls r)).get (lit "MediaBox") = (e.pageSize i).map fun s => .arr [ObjectValue.nat 0, ObjectValue.nat 0, rnd 2 s.1, rnd 2 s.2] := by
  simp only [objVal]
  by_cases h : ls = [] <;> simp only [h, if_true, if_false] <;>
    (cases cs.head? <;> cases e.pageSize i <;> cases e.trimBox i <;> simp only [opt] <;> lookup <;> rfl)

theorem get_page_trim (e : Env) (d : Doc) (i : Nat) (cs ls : List Nat) (r : Nat) :
    (objVal e d i (.page cs ls r)).get (lit "TrimBox") = (e.trimBox i).map (box 2) := by
  simp only [objVal]
  by_cases h : ls = [] <;> simp only [h, if_true, if_false] <;>
    (cases cs.head? <;> cases e.pageSize i <;> cases e.trimBox i <;> simp only [opt] <;> lookup <;> rfl)

theorem get_pages_media (e : Env) (d : Doc) (i : Nat) (k : List Nat) (c : Nat) :
    (objVal e d i (.pages k c)).get (lit "MediaBox") = some (.arr [ObjectValue.nat 0, ObjectValue.nat 0, rnd 2 e.size.1, rnd 2 e.size.2]) := by
  simp only [objVal]; lookup

theorem get_annot_start (e : Env) (d : Doc) (i : Nat) (a : Option Nat) :
    (objVal e d i (.annot a)).get (lit "Type") = some (N "Annot") ∧ (objVal e d i (.annot a)).get (lit "Subtype") = some (N "Link") ∧
    (objVal e d i (.annot a)).get (lit "Rect") = some (box 2 (e.rect i)) := by
  refine ⟨?_, ?_, ?_⟩ <;> (simp only [objVal]; lookup)

theorem get_annot_url (e : Env) (d : Doc) (i : Nat) :
    (objVal e d i (.annot none)).get (lit "A") = some (D [("S", N "URI"), ("URI", .str (stored e (i + 1) (e.url i)))]) ∧
    (objVal e d i (.annot none)).get (lit "Dest") = none := by
  refine ⟨?_, ?_⟩ <;> (simp only [objVal]; lookup)

theorem get_annot_dest (e : Env) (d : Doc) (i a : Nat) (p : Option Nat) (y : Nat) (h : assoc d.anchors a = some (p, y)) :
    (objVal e d i (.annot (some a))).get (lit "A") = none ∧
    (objVal e d i (.annot (some a))).get (lit "Dest") =
      some (.arr [.ref (match p with | none => 0 | some p => p + 1), N "XYZ", ObjectValue.nat 0, rnd 2 (e.anchorY y), .null]) := by
  refine ⟨?_, ?_⟩ <;> (simp only [objVal, h]; lookup; try (cases p <;> rfl))

theorem get_action (x : Val) : (D [("S", N "URI"), ("URI", x)]).get (lit "S") = some (N "URI") ∧ (D [("S", N "URI"), ("URI", x)]).get (lit "URI") = some x := by
  refine ⟨?_, ?_⟩ <;> lookup

theorem get_outline (e : Env) (d : Doc) (i t de p : Nat) (pr ne : Option Nat) :
    (objVal e d i (.outline t de p pr ne)).get (lit "Title") = some (.str (utf16 (e.title t))) ∧
    (objVal e d i (.outline t de p pr ne)).get (lit "Dest") = some (.arr [.ref de, N "XYZ", ObjectValue.nat 90, rnd 6 (e.outlineY i), ObjectValue.nat 0]) ∧
    (objVal e d i (.outline t de p pr ne)).get (lit "Next") = ne.map .ref ∧
    (objVal e d i (.outline t de p pr ne)).get (lit "Prev") = pr.map .ref ∧
    (objVal e d i (.outline t de p pr ne)).get (lit "Parent") = some (.ref p) := by
  refine ⟨?_, ?_, ?_, ?_, ?_⟩ <;> (simp only [objVal]; cases pr <;> cases ne <;> simp only [opt] <;> lookup <;> rfl)

theorem get_outlines (e : Env) (d : Doc) (i : Nat) (f l : Option Nat) (c : Nat) :
    (objVal e d i (.outlines f l c)).get (lit "Type") = some (N "Outlines") ∧ (objVal e d i (.outlines f l c)).get (lit "First") = f.map .ref ∧
    (objVal e d i (.outlines f l c)).get (lit "Last") = l.map .ref ∧ (objVal e d i (.outlines f l c)).get (lit "Count") = some (ObjectValue.nat c) := by
  refine ⟨?_, ?_, ?_, ?_⟩ <;> (simp only [objVal]; cases f <;> cases l <;> simp only [opt] <;> lookup <;> rfl)

theorem get_catalog_outlines (e : Env) (d : Doc) (i : Nat) (o : Option Nat) : (objVal e d i (.catalog o)).get (lit "Outlines") = o.map .ref := by
  simp only [objVal]; cases o <;> simp only [opt, Option.isSome_none, Option.isSome_some, if_true] <;> lookup <;> rfl

end Verif.ObjectValue
