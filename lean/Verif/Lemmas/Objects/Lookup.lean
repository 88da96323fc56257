import Verif.Spec.ObjectValue
import Verif.Spec.FileReader
import Verif.Lemmas.Bytes
import Mathlib.Data.List.Nodup
/- Entries of the dictionaries. -/
set_option maxRecDepth 10000
namespace Verif.PdfObject
open Doc Objects ObjectValue

theorem get_eq (k : String) (v : Val) (l : List (String × Val)) : (D ((k, v) :: l)).get (lit k) = some v := by
  simp [D, Val.get]

theorem get_ne {k k' : String} (h : lit k ≠ lit k') (v : Val) (l : List (String × Val)) :
    (D ((k, v) :: l)).get (lit k') = (D l).get (lit k') := by
  simp [D, Val.get, h]

theorem get_nil (k : Bytes) : (D []).get k = none := rfl

theorem get_append_none {k : Bytes} {a : List (String × Val)} (h : (D a).get k = none) (b : List (String × Val)) :
    (D (a ++ b)).get k = (D b).get k := by
  simp only [D, Val.get, Option.map_eq_none_iff] at h ⊢
  rw [List.map_append, List.find?_append, h]
  rfl

/-- Look an entry up. -/
macro "lookup" : tactic => `(tactic| ((try simp only [List.cons_append, List.nil_append]); (repeat rw [get_ne (by decide)]); first | rw [get_eq] | rw [get_nil] | skip))

theorem get_catalog_pages (e : Env) (d : Doc) (i : Nat) (o : Option Nat) : (objVal e d i (.catalog o)).get (lit "Pages") = some (.ref 2) := by
  simp only [objVal, List.append_assoc]; lookup

theorem get_catalog_type (e : Env) (d : Doc) (i : Nat) (o : Option Nat) : (objVal e d i (.catalog o)).get (lit "Type") = some (N "Catalog") := by
  simp only [objVal, List.append_assoc]; lookup

theorem get_trailer_root (t : Compile.Trailer) (n : Nat) : (trailerVal t n).get (lit "Root") = some (.ref 1) := by
  simp only [trailerVal, List.append_assoc]; lookup

theorem get_trailer_encrypt (t : Compile.Trailer) (n : Nat) : (trailerVal t n).get (lit "Encrypt") = t.encrypt.map .ref := by
  simp only [trailerVal, List.append_assoc]
  cases t.encrypt with
  | some id => simp only; lookup; rfl
  | none => cases t.info <;> simp only <;> lookup <;> rfl

theorem get_trailer_id (t : Compile.Trailer) (n id : Nat) (h : t.encrypt = some id) : (trailerVal t n).get (lit "ID") = some (.arr [.str [], .str []]) := by
  simp only [trailerVal, h, List.append_assoc]
  lookup

theorem get_enc (e : Env) (d : Doc) (i : Nat) : (objVal e d i .encryption).get (lit "Filter") = some (N "Standard") ∧
    (objVal e d i .encryption).get (lit "V") = some (ObjectValue.nat 1) ∧ (objVal e d i .encryption).get (lit "R") = some (ObjectValue.nat 2) ∧
    (objVal e d i .encryption).get (lit "O") = some (.str e.o) ∧ (objVal e d i .encryption).get (lit "U") = some (.str e.u) ∧
    (objVal e d i .encryption).get (lit "P") = some (int e.p) := by
  simp only [objVal]
  refine ⟨?_, ?_, ?_, ?_, ?_, ?_⟩ <;> lookup

theorem get_pages_type (e : Env) (d : Doc) (i : Nat) (k : List Nat) (c : Nat) : (objVal e d i (.pages k c)).get (lit "Type") = some (N "Pages") := by
  simp only [objVal]; lookup

theorem get_pages_kids (e : Env) (d : Doc) (i : Nat) (k : List Nat) (c : Nat) : (objVal e d i (.pages k c)).get (lit "Kids") = some (ObjectValue.refs k) := by
  simp only [objVal]; lookup

theorem get_page_type (e : Env) (d : Doc) (i : Nat) (cs ls : List Nat) (r : Nat) : (objVal e d i (.page cs ls r)).get (lit "Type") = some (N "Page") := by
  simp only [objVal, List.append_assoc]; lookup

theorem get_page_contents (e : Env) (d : Doc) (i : Nat) (cs ls : List Nat) (r : Nat) :
    (objVal e d i (.page cs ls r)).get (lit "Contents") = cs.head?.map .ref := by
  simp only [objVal, List.append_assoc]
  by_cases h : ls = []
  · simp only [h, if_true]
    cases cs with
    | nil => cases e.pageSize i <;> cases e.trimBox i <;> simp only [List.head?_nil, opt] <;> lookup <;> rfl
    | cons c cs => simp only [List.head?_cons, opt]; lookup; rfl
  · simp only [h, if_false]
    cases cs with
    | nil => cases e.pageSize i <;> cases e.trimBox i <;> simp only [List.head?_nil, opt] <;> lookup <;> rfl
    | cons c cs => simp only [List.head?_cons, opt]; lookup; rfl

theorem get_content_filter (e : Env) (d : Doc) (i : Nat) (es : List Doc.Entry) :
    (objVal e d i (.content es)).get (lit "Filter") = if e.deflate.isSome then some (N "FlateDecode") else none := by
  simp only [objVal]
  by_cases h : e.deflate.isSome <;> simp only [h, if_true, if_false, Bool.false_eq_true] <;> lookup

theorem get_of_mem {l : List (Bytes × Val)} (h : (l.map (·.1)).Nodup) {k : Bytes} {v : Val} (hv : (k, v) ∈ l) : (Val.dict l).get k = some v := by
  simp only [Val.get]
  induction l with
  | nil => simp at hv
  | cons p l ih =>
    rw [List.map_cons, List.nodup_cons] at h
    by_cases hp : p.1 = k
    · rcases List.mem_cons.1 hv with rfl | hm
      · simp
      · exact absurd (hp ▸ List.mem_map.2 ⟨_, hm, rfl⟩ : p.1 ∈ l.map (·.1)) h.1
    · rcases List.mem_cons.1 hv with rfl | hm
      · exact absurd rfl hp
      · simp only [List.find?_cons, show (p.1 == k) = false by simpa using hp]
        exact ih h.2 hm

theorem get_D_of_mem {l : List (String × Val)} (h : (l.map fun p => lit p.1).Nodup) {k : String} {v : Val} (hv : (k, v) ∈ l) :
    (D l).get (lit k) = some v := by
  unfold D
  exact get_of_mem (by rw [List.map_map]; exact h) (List.mem_map.2 ⟨_, hv, rfl⟩)

theorem get_page_resources (e : Env) (d : Doc) (i : Nat) (cs ls : List Nat) (r : Nat) :
    (objVal e d i (.page cs ls r)).get (lit "Resources") = some (.ref r) := by
  simp only [objVal, List.append_assoc]; lookup

theorem get_font (e : Env) (d : Doc) (i f a b cid uni : Nat) :
    (objVal e d i (.font f a b cid uni)).get (lit "DescendantFonts") = some (.arr [.ref (cid + 1)]) ∧
    (objVal e d i (.font f a b cid uni)).get (lit "ToUnicode") = some (.ref (uni + 1)) := by
  simp only [objVal]
  constructor <;> lookup <;> rfl

theorem get_cid (e : Env) (d : Doc) (i desc : Nat) :
    (objVal e d i (.cidFont desc)).get (lit "FontDescriptor") = some (.ref (desc + 1)) ∧
    (objVal e d i (.cidFont desc)).get (lit "W") = some (.arr ((e.widths (i + 1)).flatMap fun p => [ObjectValue.nat p.1, .arr [ObjectValue.nat p.2]])) := by
  simp only [objVal]
  constructor <;> lookup

theorem get_desc (e : Env) (d : Doc) (i f : Nat) : (objVal e d i (.fontDesc f)).get (lit "FontFile2") = some (.ref (f + 1)) := by
  simp only [objVal]; lookup

theorem get_fontFile (e : Env) (d : Doc) (i : Nat) : (objVal e d i .fontFile).get (lit "Filter") = some (N "FlateDecode") := by
  simp only [objVal]; lookup

theorem get_unicode (e : Env) (d : Doc) (i : Nat) : (objVal e d i .unicodeMap).get (lit "Filter") = none := by
  simp only [objVal]; lookup

theorem widths_back (l : List (Nat × Nat)) : FileReader.widths (l.flatMap fun p => [ObjectValue.nat p.1, .arr [ObjectValue.nat p.2]]) = some l := by
  have hn : ∀ n : Nat, ContentReader.nat (n : ℚ) = some n := by intro n; simp [ContentReader.nat]
  induction l with
  | nil => rfl
  | cons p l ih =>
    rw [List.flatMap_cons]
    show FileReader.widths (.num (p.1 : ℚ) :: .arr [.num (p.2 : ℚ)] :: List.flatMap (fun p => [ObjectValue.nat p.1, .arr [ObjectValue.nat p.2]]) l) = _
    simp only [FileReader.widths, hn, Option.bind_some, ih, Option.map_some]

theorem nodup_named (p : String) {l : List (Nat × Nat)} (h : (l.map (·.1)).Nodup) : ((named p l).map (·.1)).Nodup := by
  have : (named p l).map (·.1) = (l.map (·.1)).map fun n => lit p ++ dec n := by simp [named]
  rw [this]
  exact h.map fun a b hab => dec_inj (List.append_cancel_left hab)

/-- A resource name is found in its category. -/
theorem get_named (p : String) {l : List (Nat × Nat)} {k m : Nat} (h : Denotes l k m) (x : List (Bytes × Val)) :
    (Val.dict (named p l ++ x)).get (lit p ++ dec k) = some (.ref m) := by
  unfold Denotes at h
  simp only [Val.get]
  induction l with
  | nil => simp at h
  | cons a l ih =>
    have e : named p (a :: l) = (lit p ++ dec a.1, .ref a.2) :: named p l := rfl
    rw [e, List.cons_append, List.find?_cons]
    by_cases ha : a.1 = k
    · simp only [ha]
      rw [List.filter_cons, if_pos (by simpa using ha)] at h
      have := (List.cons.inj h).1
      simp [this]
    · rw [List.filter_cons, if_neg (by simpa using ha)] at h
      have : ((lit p ++ dec a.1) == (lit p ++ dec k)) = false := by
        simp only [beq_eq_false_iff_ne, ne_eq, List.append_cancel_left_eq]
        exact fun hh => ha (dec_inj hh)
      rw [this]
      exact ih h

theorem get_dict_eq (k : Bytes) (v : Val) (l : List (Bytes × Val)) : (Val.dict ((k, v) :: l)).get k = some v := by
  simp [Val.get]
theorem get_dict_ne {k k' : Bytes} (h : k ≠ k') (v : Val) (l : List (Bytes × Val)) : (Val.dict ((k, v) :: l)).get k' = (Val.dict l).get k' := by
  simp [Val.get, h]

theorem get_proc (e : Env) (d : Doc) (i : Nat) (fs : List RelFont) (cs : List RelCS) (xs gs : List Nat) :
    (objVal e d i (.procset fs cs xs gs)).get (lit "Font") = some (.dict (named "F" (fs.map fun r => (r.count + 1, r.index + 1)))) ∧
    (objVal e d i (.procset fs cs xs gs)).get (lit "ColorSpace") = some (.dict (named "CS" (cs.map fun r => (r.count + 1, r.index + 1)))) ∧
    (objVal e d i (.procset fs cs xs gs)).get (lit "XObject") =
      some (.dict (named "I" (xs.map fun i => (i + 1, i + 1)) ++ e.templates.map fun t => (t.1.tail, .ref t.2))) ∧
    (objVal e d i (.procset fs cs xs gs)).get (lit "ExtGState") = some (.dict (named "GS" (gs.map fun i => (i + 1, i + 1)))) := by
  simp only [objVal]
  refine ⟨?_, ?_, ?_, ?_⟩ <;> (repeat rw [get_dict_ne (by decide)]) <;> rw [get_dict_eq]

end Verif.PdfObject
