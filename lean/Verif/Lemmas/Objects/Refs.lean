import Verif.Spec.ObjectValue
import Mathlib.Data.List.Perm.Basic
/- The references in the objects read are those the document was built with. -/
namespace Verif.PdfObject
open Doc Objects ObjectValue

@[simp] theorem refs_arr (l : List Val) : (Val.arr l).refs = l.flatMap Val.refs := by
  rw [Val.refs]
  induction l with
  | nil => simp [Val.refs.refsList]
  | cons v l ih => simp [Val.refs.refsList, ih]

@[simp] theorem refs_dict (l : List (Bytes × Val)) : (Val.dict l).refs = l.flatMap fun p => p.2.refs := by
  rw [Val.refs]
  induction l with
  | nil => simp [Val.refs.refsDict]
  | cons v l ih => obtain ⟨k, v⟩ := v; simp [Val.refs.refsDict, ih]

@[simp] theorem refs_D (l : List (String × Val)) : (D l).refs = l.flatMap fun p => p.2.refs := by
  simp [D, List.flatMap_map]

@[simp] theorem refs_ref (n : Nat) : (Val.ref n).refs = [n] := by rw [Val.refs]
@[simp] theorem refs_num (q : ℚ) : (Val.num q).refs = [] := by rw [Val.refs] <;> simp
@[simp] theorem refs_name (q : Bytes) : (Val.name q).refs = [] := by rw [Val.refs] <;> simp
@[simp] theorem refs_str (q : Bytes) : (Val.str q).refs = [] := by rw [Val.refs] <;> simp
@[simp] theorem refs_null : (Val.null).refs = [] := by rw [Val.refs] <;> simp
@[simp] theorem refs_N (s : String) : (N s).refs = [] := refs_name _
@[simp] theorem refs_nat (n : Nat) : (ObjectValue.nat n).refs = [] := refs_num _
@[simp] theorem refs_int (n : Int) : (ObjectValue.int n).refs = [] := refs_num _
@[simp] theorem refs_rnd (k : Nat) (q : ℚ) : (rnd k q).refs = [] := refs_num _
@[simp] theorem refs_box (k : Nat) (b : Box) : (box k b).refs = [] := by simp [box]
@[simp] theorem refs_refs (l : List Nat) : (ObjectValue.refs l).refs = l := by
  simp [ObjectValue.refs, List.flatMap_map]
@[simp] theorem refs_opt (k : String) (n : Option Nat) : ((opt k n).flatMap fun p => p.2.refs) = n.toList := by
  cases n <;> simp [opt]
@[simp] theorem refs_named (p : String) (l : List (Nat × Nat)) : ((named p l).flatMap fun p => p.2.refs) = l.map (·.2) := by
  induction l with
  | nil => rfl
  | cons a l ih =>
    have : named p (a :: l) = (lit p ++ dec a.1, .ref a.2) :: named p l := rfl
    rw [this, List.flatMap_cons, ih]; simp

theorem flatMap_empty {α β : Type} (l : List α) (f : α → List β) (h : ∀ x ∈ l, f x = []) : l.flatMap f = [] := by
  simpa using h

theorem refs_nats (l : List Nat) : ((l.map ObjectValue.nat).flatMap Val.refs) = [] := by
  rw [List.flatMap_map]; simp

@[simp] theorem refs_pngParms (a b c : Nat) : ((pngParms a b c).flatMap fun p => p.2.refs) = [] := by simp [pngParms]

@[simp] theorem refs_imageBase (l : Look) (x : Bool) (r : Option Nat) (s : Space) (b : Nat) :
    ((imageBase l x r s b).flatMap fun p => p.2.refs) = if x then [r.getD 0 + 1] else [] := by
  cases x
  · simp only [imageBase, imageSpace, Bool.false_eq_true, if_false]
    split <;> simp
  · simp [imageBase, imageSpace]

theorem refs_separation (n : Bytes) (k : Ink) : (separation n k).refs = [] := by
  cases k <;> simp [separation]

/-- The references of templates in the resource dictionary. -/
def extraRefs (e : Env) : Obj → List Nat
  | .procset _ _ _ _ => e.templates.map (·.2)
  | _ => []

theorem objVal_refs (e : Env) (d : Doc) (i : Nat) (o : Obj) (hp : ∀ cs ls r, o = .page cs ls r → cs.length ≤ 1) (n : Nat) :
    n ∈ (objVal e d i o).refs ↔ n ∈ (Doc.refs d o).map (·.num) ∨ n ∈ extraRefs e o := by
  cases o with
  | catalog o => cases o <;> simp [objVal, Doc.refs, extraRefs]
  | pages k c => simp [objVal, Doc.refs, extraRefs, Function.comp_def]
  | outlines f l c => simp [objVal, Doc.refs, extraRefs, Function.comp_def]
  | procset fs cs xs gs =>
    simp only [objVal, Doc.refs, extraRefs, refs_dict, List.flatMap_cons, List.flatMap_nil, List.flatMap_append, refs_named, refs_arr,
      refs_N, List.append_nil, List.nil_append, List.map_append, List.map_map, Function.comp_def, List.flatMap_map, refs_ref,
      List.mem_append, List.mem_flatMap, List.mem_singleton, List.mem_map]
    grind
  | page cs ls r =>
    have h1 := hp cs ls r rfl
    have h2 : cs.head?.toList = cs := by
      cases cs with
      | nil => rfl
      | cons c cs => simp only [List.length_cons] at h1; have : cs = [] := List.length_eq_zero_iff.1 (by omega); subst this; rfl
    have h3 : ((if ls = [] then [] else [("Annots", ObjectValue.refs ls)]).flatMap fun p : String × Val => p.2.refs) = ls := by
      by_cases h : ls = [] <;> simp [h]
    simp only [objVal, refs_D, List.flatMap_append, h3, refs_opt, h2]
    clear h1 h2 h3 hp
    cases e.pageSize i <;> cases e.trimBox i <;> simp [Doc.refs, extraRefs, Function.comp_def] <;> grind
  | image c info s r =>
    simp only [objVal, refs_D, List.flatMap_append, imageDict]
    obtain ⟨m, a, x, sp⟩ := info
    have h1 : ((if (e.look i).jpeg = true then [] else pngParms (e.look i).colors (e.look i).bpc (e.look i).w).flatMap
        fun p : String × Val => p.2.refs) = [] := by
      by_cases h : (e.look i).jpeg = true <;> simp [h]
    have h2 : ((if (e.look i).trns = [] then [] else [("Mask", Val.arr ((e.look i).trns.flatMap fun t => [ObjectValue.nat t.toNat, ObjectValue.nat t.toNat]))]).flatMap
        fun p : String × Val => p.2.refs) = [] := by
      by_cases h : (e.look i).trns = [] <;> simp [h, List.flatMap_assoc]
    cases m <;> cases a <;> cases x <;> cases sp <;>
      simp only [Bool.false_eq_true, if_false, if_true, List.flatMap_append, h1, h2, refs_imageBase] <;>
      simp [Doc.refs, extraRefs, or_comm]
  | annot a =>
    cases a with
    | none => simp [objVal, Doc.refs, extraRefs]
    | some a =>
      simp only [objVal, Doc.refs, extraRefs]
      rcases hs : assoc d.anchors a with _ | ⟨p, y⟩
      · simp
      · cases p <;> simp [eq_comm]
  | cidFont c => simp [objVal, Doc.refs, extraRefs, List.flatMap_assoc]
  | outline t de p pr ne => simp [objVal, Doc.refs, extraRefs, Function.comp_def]; grind
  | extGS k => cases k <;> simp [objVal, Doc.refs, extraRefs]
  | colorSpace n k => simp [objVal, Doc.refs, extraRefs, refs_separation]
  | _ => simp [objVal, Doc.refs, extraRefs]

end Verif.PdfObject
