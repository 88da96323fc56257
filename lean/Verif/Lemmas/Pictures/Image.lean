import Verif.Props.FileGraph
import Verif.Spec.Pictures
/- What a viewer finds in an image of the file. -/
set_option maxRecDepth 10000
namespace Verif.Pictures
open Doc Objects ObjectValue PdfObject FileReader Props

theorem get_none {l : List (String × Val)} {k : String} (h : ∀ p ∈ l, lit p.1 ≠ lit k) : (D l).get (lit k) = none := by
  unfold D
  simp only [Val.get, Option.map_eq_none_iff, List.find?_eq_none, List.mem_map]
  rintro _ ⟨p, hp, rfl⟩
  simpa using h p hp

theorem natAt_mem {l : List (String × Val)} (h : (l.map fun p => lit p.1).Nodup) {k : String} {n : Nat} (hv : (k, ObjectValue.nat n) ∈ l) :
    natAt (D l) k = some n := by
  unfold natAt
  rw [get_D_of_mem h hv]
  simp [ObjectValue.nat, ContentReader.nat]

theorem parms_keys (a b w : Nat) : (([("Predictor", ObjectValue.nat 15), ("Colors", ObjectValue.nat a), ("BitsPerComponent", ObjectValue.nat b), ("Columns", ObjectValue.nat w)]).map fun p => lit p.1).Nodup := by
  simp only [List.map_cons, List.map_nil]
  decide

theorem parms_ok (a b w : Nat) : ∃ p, pngParms a b w = [("DecodeParms", p)] ∧ natAt p "Predictor" = some 15 ∧ natAt p "Colors" = some a ∧
    natAt p "BitsPerComponent" = some b ∧ natAt p "Columns" = some w :=
  ⟨_, rfl, natAt_mem (parms_keys a b w) (by simp), natAt_mem (parms_keys a b w) (by simp), natAt_mem (parms_keys a b w) (by simp),
    natAt_mem (parms_keys a b w) (by simp)⟩

/-- The samples of an image, from the entries of its dictionary. -/
theorem raster_of {c : Decoder} {file : Bytes} {n w h bits comps : Nat} {l : List (String × Val)} {stored data : Bytes}
    (ho : object file n = some (D l, some stored)) (hd : c.decrypt n stored = data) (hk : (l.map fun p => lit p.1).Nodup)
    (hw : ("Width", ObjectValue.nat w) ∈ l) (hh : ("Height", ObjectValue.nat h) ∈ l) (hb : ("BitsPerComponent", ObjectValue.nat bits) ∈ l)
    (hf : ("Filter", Val.name (lit "FlateDecode")) ∈ l) (hp : ∀ p ∈ pngParms comps bits w, p ∈ l) :
    pdfRaster c file n comps = ((c.inflate data).bind (decodeRows comps bits w h)).map fun rows => ⟨w, h, bits, comps, rows⟩ := by
  obtain ⟨p, p1, p2, p3, p4, p5⟩ := parms_ok comps bits w
  have hp' : (D l).get (lit "DecodeParms") = some p := get_D_of_mem hk (hp _ (by simp [p1]))
  unfold pdfRaster
  simp only [ho, natAt_mem hk hw, natAt_mem hk hh, natAt_mem hk hb, hp', get_D_of_mem hk hf, bind, Option.bind, p2, p3, p4, p5, hd]
  simp
  cases c.inflate data with
  | none => rfl
  | some z => simp only; cases decodeRows comps bits w h z <;> rfl

variable {e : Env} {d : Doc} {h : List Op} {prot : Bool} {c : Decoder}

/-- An image of the document that a name denotes: what the document knows about it. -/
structure Shown (e : Env) (prot : Bool) (h : List Op) (d : Doc) (c : Decoder) (i id : Nat) (info : ImgInfo) (s g : Option Nat) : Prop where
  comp : Compiled e prot h d
  md5 : c.md5 = e.md5
  key : c.key = e.key
  obj : d.objs[i]? = some (.image id info s g)
  named : Denotes d.xobjNames (i + 1) (i + 1)
  png : (e.look i).jpeg = false

variable {i id : Nat} {info : ImgInfo} {s g : Option Nat}

theorem Shown.at (q : Shown e prot h d c i id info s g) : d.objAt (i + 1) = some (.image id info s g) := by
  have := q.obj
  simpa [Doc.objAt] using this

theorem Shown.parts (q : Shown e prot h d c i id info s g) :
    info.isMask = false → (info.alpha = true → s ≠ none) ∧ (info.indexed = true → g ≠ none) := by
  obtain ⟨k, hk⟩ : ∃ id', (id', i) ∈ d.imgs := by
    have hmem : (i + 1, i + 1) ∈ d.xobjNames := by
      have : (i + 1, i + 1) ∈ d.xobjNames.filter fun p => p.1 = i + 1 := by rw [q.named]; simp
      exact (List.mem_filter.1 this).1
    rw [Doc.xobjNames, (reachable_res q.comp.reachable).xobjs] at hmem
    obtain ⟨j, hj, he⟩ := List.mem_map.1 hmem
    obtain ⟨p, hp, rfl⟩ := List.mem_map.1 hj
    rw [Prod.mk.injEq] at he
    obtain rfl : p.2 = i := by omega
    exact ⟨p.1, hp⟩
  obtain ⟨m', s', r', e1, e2⟩ := reachable_imgs q.comp.reachable k i hk
  rw [q.obj] at e1
  simp only [Option.some.injEq, Obj.image.injEq] at e1
  obtain ⟨rfl, rfl, rfl, rfl⟩ := e1
  exact e2

/-- The dictionary of the image. -/
def dict (e : Env) (i : Nat) (info : ImgInfo) (s g : Option Nat) : List (String × Val) :=
  imageDict (e.look i) info s g ++ [("Length", ObjectValue.nat (if info.isMask then (e.look i).smask else (e.look i).data).length)]

theorem dict_keys (e : Env) (i : Nat) (info : ImgInfo) (s g : Option Nat) : ((dict e i info s g).map fun p => lit p.1).Nodup :=
  keys_imageDict _ _ _ _ _

theorem Shown.object (q : Shown e prot h d c i id info s g) : ∃ stored, PdfObject.object (file e d) (i + 1) = some (D (dict e i info s g), some stored) ∧
    c.decrypt (i + 1) stored = if info.isMask then (e.look i).smask else (e.look i).data := by
  have := q.comp.object q.at trivial
  refine ⟨_, this, ?_⟩
  simp only [decrypt_stored q.md5 q.key, Nat.add_sub_cancel]

theorem filter_png (hp : (e.look i).jpeg = false) : (e.look i).filter = lit "FlateDecode" := by simp [Look.filter, hp]

theorem Shown.raster (q : Shown e prot h d c i id info s g) (hm : info.isMask = false) :
    pdfRaster c (file e d) (i + 1) (e.look i).colors = ((c.inflate (e.look i).data).bind
      (decodeRows (e.look i).colors (e.look i).bpc (e.look i).w (e.look i).h)).map
        fun rows => ⟨(e.look i).w, (e.look i).h, (e.look i).bpc, (e.look i).colors, rows⟩ := by
  obtain ⟨stored, o1, o2⟩ := q.object
  rw [hm, if_neg (by simp)] at o2
  refine raster_of o1 o2 (dict_keys _ _ _ _ _) ?_ ?_ ?_ ?_ ?_
  · simp [dict, imageDict, imageBase, hm]
  · simp [dict, imageDict, imageBase, hm]
  · simp [dict, imageDict, imageBase, hm]
  · simp [dict, imageDict, imageBase, hm, filter_png q.png]
  · intro p hp
    simp only [dict, imageDict, hm, q.png]
    simp [hp]

/-- The samples of an image made as a mask. -/
theorem Shown.mask_raster (q : Shown e prot h d c i id info s g) (hm : info.isMask = true) (hb : (e.look i).bpc = 8) :
    pdfRaster c (file e d) (i + 1) 1 = ((c.inflate (e.look i).smask).bind (decodeRows 1 8 (e.look i).w (e.look i).h)).map
        fun rows => ⟨(e.look i).w, (e.look i).h, 8, 1, rows⟩ := by
  obtain ⟨stored, o1, o2⟩ := q.object
  rw [hm, if_pos rfl] at o2
  refine raster_of o1 o2 (dict_keys _ _ _ _ _) ?_ ?_ ?_ ?_ ?_
  · simp [dict, imageDict, imageBase, hm]
  · simp [dict, imageDict, imageBase, hm]
  · simp [dict, imageDict, imageBase, hm, hb]
  · simp [dict, imageDict, imageBase, hm, filter_png q.png]
  · intro p hp
    simp only [dict, imageDict, hm]
    simp [hp]

theorem Shown.size (q : Shown e prot h d c i id info s g) : pdfSize (file e d) (i + 1) = some ((e.look i).w, (e.look i).h) := by
  obtain ⟨stored, o1, o2⟩ := q.object
  have h1 : natAt (D (dict e i info s g)) "Width" = some (e.look i).w :=
    natAt_mem (dict_keys _ _ _ _ _) (by cases hm : info.isMask <;> simp [dict, imageDict, imageBase, hm])
  have h2 : natAt (D (dict e i info s g)) "Height" = some (e.look i).h :=
    natAt_mem (dict_keys _ _ _ _ _) (by cases hm : info.isMask <;> simp [dict, imageDict, imageBase, hm])
  simp [pdfSize, o1, h1, h2]

/-- The colour space as the document has it. -/
def spaceOf (l : Look) (info : ImgInfo) : Space :=
  if info.indexed then .indexed (l.pal.length / 3 - 1) l.pal else if info.isMask then .gray else if l.space = .gray then .gray else .rgb

theorem Shown.space (q : Shown e prot h d c i id info s g) (hs : (e.look i).space ≠ .cmyk) (hm : info.isMask = true → info.indexed = false)
    (hp : info.indexed = true → 3 ≤ (e.look i).pal.length) :
    pdfSpace c (file e d) (i + 1) = some (spaceOf (e.look i) info) := by
  obtain ⟨stored, o1, -⟩ := q.object
  have wf := reachable_wf q.comp.reachable i _ q.obj
  cases hi : info.indexed with
  | true =>
    have hm' : info.isMask = false := by
      cases hx : info.isMask with
      | false => rfl
      | true => rw [hm hx] at hi; cases hi
    obtain ⟨j, rfl⟩ := Option.ne_none_iff_exists'.1 ((q.parts hm').2 hi)
    have hpal := (image_in_file q.comp c q.md5 q.key (i + 1) (i + 1) _ _ _ _ q.named q.at).2.2 hm' hi
    have hg : (D (dict e i info s (some j))).get (lit "ColorSpace") =
        some (.arr [N "Indexed", N "DeviceRGB", ObjectValue.int ((e.look i).pal.length / 3 - 1), .ref (j + 1)]) :=
      get_D_of_mem (dict_keys _ _ _ _ _) (by simp [dict, imageDict, imageBase, imageSpace, hm', hi])
    have hpj : imageData c (file e d) (j + 1) = some (e.look i).pal := by
      simpa [palette, o1, hg, N, ObjectValue.int] using hpal
    have hl : ContentReader.nat (((e.look i).pal.length : Int) / 3 - 1 : Int) = some ((e.look i).pal.length / 3 - 1) := by
      have := hp hi
      have h3 : ((e.look i).pal.length : Int) / 3 - 1 = (((e.look i).pal.length / 3 - 1 : Nat) : Int) := by omega
      rw [h3, show ((((e.look i).pal.length / 3 - 1 : Nat) : Int) : ℚ) = (((e.look i).pal.length / 3 - 1 : Nat) : ℚ) from by simp]
      simp [ContentReader.nat]
    have hl' := hl
    push_cast at hl'
    simp [pdfSpace, o1, hg, N, ObjectValue.int, hpj, spaceOf, hi, hl']
  | false =>
    cases hx : info.isMask with
    | true =>
      have hg : (D (dict e i info s g)).get (lit "ColorSpace") = some (.name (lit "DeviceGray")) :=
        get_D_of_mem (dict_keys _ _ _ _ _) (by simp [dict, imageDict, imageBase, imageSpace, hx, hi, Objects.Space.bytes])
      simp [pdfSpace, o1, hg, spaceOf, hi, hx]
    | false =>
      have hg : (D (dict e i info s g)).get (lit "ColorSpace") = some (.name (e.look i).space.bytes) :=
        get_D_of_mem (dict_keys _ _ _ _ _) (by simp [dict, imageDict, imageBase, imageSpace, hx, hi])
      have hne : lit "DeviceRGB" ≠ lit "DeviceGray" := by decide
      cases hsp : (e.look i).space with
      | gray => simp [pdfSpace, o1, hg, spaceOf, hi, hx, hsp, Objects.Space.bytes]
      | rgb => simp [pdfSpace, o1, hg, spaceOf, hi, hx, hsp, Objects.Space.bytes, hne]
      | cmyk => exact absurd hsp hs

theorem dict_noDecode (hs : (e.look i).space ≠ .cmyk) : (D (dict e i info s g)).get (lit "Decode") = none := by
  refine get_none fun p hp => ?_
  have : p.1 ∈ ["Type", "Subtype", "Width", "Height", "ColorSpace", "BitsPerComponent", "Filter", "DecodeParms", "Mask", "SMask", "Length"] := by
    replace hp := List.mem_map_of_mem (f := Prod.fst) hp
    unfold dict imageDict at hp
    cases hm : info.isMask <;> cases hj : (e.look i).jpeg <;> cases hi : info.indexed <;> cases hsp : info.split <;> cases ha : info.alpha <;> by_cases ht : (e.look i).trns = [] <;>
      simp [hm, hj, hi, hsp, ha, ht, imageBase, imageSpace, pngParms, hs] at hp <;> simp only [List.mem_cons, List.not_mem_nil, or_false] <;> grind
  simp only [List.mem_cons, List.not_mem_nil, or_false] at this
  rcases this with h | h | h | h | h | h | h | h | h | h | h <;> rw [h] <;> decide

/-- The soft mask and the colour key. -/
theorem Shown.smask (q : Shown e prot h d c i id info s g) (hm : info.isMask = false) (hs : info.split = false) (ha : info.alpha = true) :
    ∃ j, (D (dict e i info s g)).get (lit "SMask") = some (.ref (j + 1)) ∧ pdfSpace c (file e d) (j + 1) = some .gray ∧
      pdfRaster c (file e d) (j + 1) 1 = ((c.inflate (e.look i).smask).bind (decodeRows 1 8 (e.look i).w (e.look i).h)).map
        fun rows => ⟨(e.look i).w, (e.look i).h, 8, 1, rows⟩ := by
  obtain ⟨j, rfl⟩ := Option.ne_none_iff_exists'.1 ((q.parts hm).1 ha)
  have wf := reachable_wf q.comp.reachable i _ q.obj
  obtain ⟨x, a1, a2⟩ := wf ⟨"SMask", j + 1, .imageSMask⟩ (by simp [core])
  cases x <;> simp [Obj.kind] at a2
  have q1 := q.comp.object a1 trivial
  simp only [Nat.add_sub_cancel, storedData, streamData, Option.map_some, objVal, owner_smask q.comp.reachable q.obj] at q1
  have hk : ((imageBase { e.look i with space := .gray } false none .gray 8 ++ pngParms 1 8 (e.look i).w ++ [("Length", ObjectValue.nat (e.look i).smask.length)]).map fun p => lit p.1).Nodup := by
    show ([lit "Type", lit "Subtype", lit "Width", lit "Height", lit "ColorSpace", lit "BitsPerComponent", lit "Filter", lit "DecodeParms", lit "Length"] : List Bytes).Nodup
    decide +kernel
  refine ⟨j, get_D_of_mem (dict_keys _ _ _ _ _) (by simp [dict, imageDict, hm, hs, ha]), ?_, ?_⟩
  · have hg := get_D_of_mem hk (k := "ColorSpace") (v := .name (lit "DeviceGray")) (by simp [imageBase, imageSpace, Objects.Space.bytes])
    unfold pdfSpace
    rw [q1]
    simp only [bind, Option.bind, hg]
    simp
  · refine raster_of q1 (decrypt_stored q.md5 q.key _ _) hk ?_ ?_ ?_ ?_ ?_
    · simp [imageBase]
    · simp [imageBase]
    · simp [imageBase]
    · simp [imageBase, Look.filter, q.png]
    · intro p hp; simp [hp]

theorem dict_noSMask (ha : info.alpha = false) : (D (dict e i info s g)).get (lit "SMask") = none := by
  refine get_none fun p hp => ?_
  have : p.1 ∈ ["Type", "Subtype", "Width", "Height", "ColorSpace", "Decode", "BitsPerComponent", "Filter", "DecodeParms", "Mask", "Length"] := by
    replace hp := List.mem_map_of_mem (f := Prod.fst) hp
    unfold dict imageDict at hp
    cases hm : info.isMask <;> cases hj : (e.look i).jpeg <;> cases hi : info.indexed <;> cases hsp : info.split <;> by_cases ht : (e.look i).trns = [] <;>
      by_cases hs : (e.look i).space = .cmyk <;>
      simp [hm, hj, hi, hsp, ha, ht, imageBase, imageSpace, pngParms, hs] at hp <;> simp only [List.mem_cons, List.not_mem_nil, or_false] <;> grind
  simp only [List.mem_cons, List.not_mem_nil, or_false] at this
  rcases this with h | h | h | h | h | h | h | h | h | h | h <;> rw [h] <;> decide

theorem dict_mask (hm : info.isMask = false) (hs : info.split = false) : (D (dict e i info s g)).get (lit "Mask") =
    if (e.look i).trns = [] then none else some (.arr ((e.look i).trns.flatMap fun t => [ObjectValue.nat t.toNat, ObjectValue.nat t.toNat])) := by
  by_cases ht : (e.look i).trns = []
  · rw [if_pos ht]
    refine get_none fun p hp => ?_
    have : p.1 ∈ ["Type", "Subtype", "Width", "Height", "ColorSpace", "Decode", "BitsPerComponent", "Filter", "DecodeParms", "SMask", "Length"] := by
      replace hp := List.mem_map_of_mem (f := Prod.fst) hp
      unfold dict imageDict at hp
      cases hj : (e.look i).jpeg <;> cases hi : info.indexed <;> cases ha : info.alpha <;>
        by_cases hsp : (e.look i).space = .cmyk <;>
        simp [hm, hj, hi, hs, ha, ht, imageBase, imageSpace, pngParms, hsp] at hp <;> simp only [List.mem_cons, List.not_mem_nil, or_false] <;> grind
    simp only [List.mem_cons, List.not_mem_nil, or_false] at this
    rcases this with h | h | h | h | h | h | h | h | h | h | h <;> rw [h] <;> decide
  · rw [if_neg ht]
    exact get_D_of_mem (dict_keys _ _ _ _ _) (by simp [dict, imageDict, hm, hs, ht])

end Verif.Pictures
