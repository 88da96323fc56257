import Verif.Lemmas.Objects.Named
import Verif.Props.Protect
/- Reading the objects with a stream. -/
set_option maxRecDepth 10000
namespace Verif.PdfObject
open Doc Objects ObjectValue
open Content (fixed)

theorem cipher_stored {e : Env} (h : Sound e) (n : Nat) (data : Bytes) :
    Streams.cipher e.md5 e.key n data = some (stored e n data) := by
  unfold Streams.cipher stored
  cases hk : e.key with
  | none => rfl
  | some k =>
    have h5 := h.2 k hk
    have hl : (Protect.objectkey e.md5 k n).length = 10 := by simp [Protect.objectkey, h.1]
    simp only
    unfold Protect.rc4Cip
    rw [if_neg (by omega), Props.objectkey_standard e.md5 k h5]
    rfl

theorem stored_length (e : Env) (n : Nat) (data : Bytes) : (stored e n data).length = data.length := by
  unfold stored
  cases e.key with
  | none => rfl
  | some k => exact Protect.xorKeyStream_length _ _

/-! ### Dictionaries of streams -/

/-- Entries with their names as bytes. -/
def keyed (l : List (String × Val)) : List (Bytes × Val) := l.map fun p => (lit p.1, p.2)

theorem keyed_append (a b : List (String × Val)) : keyed (a ++ b) = keyed a ++ keyed b := by simp [keyed]

theorem D_keyed (l : List (String × Val)) : D l = .dict (keyed l) := rfl

/-- The length is found in a dictionary without another one. -/
theorem streamLength_D {l : List (String × Val)} (h : (l.map fun p => lit p.1).Nodup) {n : Nat} (hn : ("Length", nat n) ∈ l) :
    (D l).streamLength = some n := by
  have : (D l).get (lit "Length") = some (nat n) := by
    simp only [D, Val.get]
    induction l with
    | nil => simp at hn
    | cons p l ih =>
      simp only [List.map_cons, List.find?_cons]
      by_cases hp : lit p.1 = lit "Length"
      · simp only [hp, beq_self_eq_true, if_true, Option.map_some]
        rcases List.mem_cons.1 hn with rfl | hm
        · rfl
        · exfalso
          rw [List.map_cons, List.nodup_cons] at h
          exact h.1 (List.mem_map.2 ⟨_, hm, hp.symm⟩)
      · rcases List.mem_cons.1 hn with rfl | hm
        · exact absurd rfl hp
        · have hb : (lit p.1 == lit "Length") = false := by simp [hp]
          simp only [hb]
          exact ih (by rw [List.map_cons, List.nodup_cons] at h; exact h.2) hm
  simp [Val.streamLength, this, ObjectValue.nat, nat_cast]

theorem content_dict_reads (flate : Bool) (n : Nat) : Reads (lit "<<\n" ++ ((if flate then lit "/Filter/FlateDecode" else []) ++
    (lit "/Length " ++ (dec n ++ (lit "\n" ++ lit ">>\n")))))
    (D ((if flate then [("Filter", N "FlateDecode")] else []) ++ [("Length", nat n)])) := by
  unfold Reads
  cases flate with
  | false =>
    simp only [Bool.false_eq_true, if_false]
    run_simp
    exact close_top rfl (by same) (by keys)
  | true =>
    simp only [if_true]
    run_simp
    rw [run_name_aux lex_130 (by run_simp)]
    simp only [List.cons_append, List.nil_append]
    push_lit
    run_simp
    exact close_top rfl (by same) (by keys)

theorem length_dict_reads (n : Nat) : Reads (lit "<<\n" ++ (lit "/Length " ++ (dec n ++ (lit "\n" ++ lit ">>\n")))) (D [("Length", nat n)]) := by
  unfold Reads
  run_simp
  exact close_top rfl (by same) (by keys)

theorem fontFile_dict_reads (n m : Nat) : Reads (lit "<<" ++ (lit "/Length " ++ (dec n ++ (lit "\n" ++ (lit "/Filter /FlateDecode\n" ++
    (lit "/Length1 " ++ (dec m ++ (lit "\n" ++ lit ">>\n")))))))) (D [("Length", nat n), ("Filter", N "FlateDecode"), ("Length1", nat m)]) := by
  unfold Reads
  run_simp
  exact close_top rfl (by same) (by keys)

/-! ### Images -/

theorem space_chars (s : Space) : NameChars s.bytes := by
  cases s <;> (unfold NameChars Space.bytes; decide)

theorem filter_chars (l : Look) : NameChars l.filter := by
  unfold Look.filter
  split <;> (unfold NameChars; decide)

theorem run_colorSpaceProps (l : Look) (indexed : Bool) (rgb : Option Nat) (space : Space) (st : List Entry) :
    run st (colorSpaceProps l indexed rgb space) = some (onStack (entries (keyed (imageSpace l indexed rgb space))) ++ st) := by
  unfold colorSpaceProps imageSpace
  cases indexed with
  | true =>
    simp only [if_true]
    run_simp
    simp [onStack, entries, keyed, N, int]
  | false =>
    simp only [Bool.false_eq_true, if_false]
    by_cases hc : l.space = .cmyk
    · simp only [hc, if_true]
      rw [name_74 _ (space_chars _) (by run_simp)]
      run_simp
      simp [onStack, entries, keyed, ObjectValue.nat]
    · simp only [hc, if_false]
      rw [name_74 _ (space_chars _) (by run_simp)]
      run_simp
      simp [onStack, entries, keyed]

theorem run_baseProps (l : Look) (indexed : Bool) (rgb : Option Nat) (space : Space) (bpc : Nat) (st : List Entry) (b : Bytes) :
    run st (baseProps l indexed rgb space bpc ++ b) =
      run (onStack (entries (keyed (imageBase l indexed rgb space bpc))) ++ .dictOpen :: st) b := by
  refine run_append ?_ b
  unfold baseProps imageBase
  run_simp
  rw [run_append (run_colorSpaceProps l indexed rgb space _)]
  run_simp
  rw [name_81 _ (filter_chars _) (by run_simp)]
  run_simp
  simp [onStack, entries, keyed, N, ObjectValue.nat]

theorem run_parms (colors bpc w : Nat) (st : List Entry) (b : Bytes) :
    run st (parms colors bpc w ++ b) = run (onStack (entries (keyed (pngParms colors bpc w))) ++ st) b := by
  refine run_append ?_ b
  unfold parms pngParms
  run_simp
  rw [closeDict_entries (ps := keyed [("Predictor", nat 15), ("Colors", nat colors), ("BitsPerComponent", nat bpc), ("Columns", nat w)])
    (by simp [entries, keyed, ObjectValue.nat]) (by simp only [keyed, List.map_cons, List.map_nil]; decide +kernel)]
  simp [onStack, entries, keyed, D]

theorem run_maskParms (w : Nat) (st : List Entry) (b : Bytes) :
    run st (lit "\t/DecodeParms <<\n" ++ (lit "\t\t/Predictor 15\n" ++ (lit "\t\t/Colors 1\n" ++
    (lit "\t\t/BitsPerComponent 8\n" ++ (lit "\t\t/Columns " ++ (dec w ++ (lit "\n" ++ (lit "\t>>\n" ++ b)))))))) =
      run (onStack (entries (keyed (pngParms 1 8 w))) ++ st) b := by
  unfold pngParms
  run_simp
  rw [closeDict_entries (ps := keyed [("Predictor", nat 15), ("Colors", nat 1), ("BitsPerComponent", nat 8), ("Columns", nat w)])
    (by simp [entries, keyed, ObjectValue.nat]) (by simp only [keyed, List.map_cons, List.map_nil]; decide +kernel)]
  simp [onStack, entries, keyed, D]

theorem run_smaskParms (w : Nat) (st : List Entry) (b : Bytes) :
    run st (lit "\t/DecodeParms <<" ++ (lit "/Predictor 15 /Colors 1 /BitsPerComponent 8 /Columns " ++ (dec w ++ (lit ">>\n" ++ b)))) =
      run (onStack (entries (keyed (pngParms 1 8 w))) ++ st) b := by
  unfold pngParms
  run_simp
  rw [closeDict_entries (ps := keyed [("Predictor", nat 15), ("Colors", nat 1), ("BitsPerComponent", nat 8), ("Columns", nat w)])
    (by simp [entries, keyed, ObjectValue.nat]) (by simp only [keyed, List.map_cons, List.map_nil]; decide +kernel)]
  simp [onStack, entries, keyed, D]

theorem run_colourKey (trns : Bytes) (st : List Entry) (b : Bytes) :
    run st (colourKey trns ++ b) = run (onStack (entries (keyed
      (if trns = [] then [] else [("Mask", .arr (trns.flatMap fun t => [nat t.toNat, nat t.toNat]))]))) ++ st) b := by
  refine run_append ?_ b
  unfold colourKey
  by_cases h : trns = []
  · simp [h, onStack, entries, keyed]
  · simp only [h, if_false]
    run_simp
    rw [run_append (run_flatMap _ (fun t => [nat t.toNat, nat t.toNat]) trns (by
      intro t _ st
      run_simp
      rfl) _)]
    run_simp
    simp [onStack, entries, keyed]

/-- The keys of an image dictionary. -/
def imageKeys : List Bytes := [lit "Type", lit "Subtype", lit "Width", lit "Height", lit "ColorSpace", lit "Decode",
  lit "BitsPerComponent", lit "Filter", lit "DecodeParms", lit "Mask", lit "SMask", lit "Length"]

theorem keys_space (l : Look) (indexed : Bool) (rgb : Option Nat) (space : Space) :
    ((imageSpace l indexed rgb space).map fun p => lit p.1).Sublist [lit "ColorSpace", lit "Decode"] := by
  unfold imageSpace
  cases indexed <;> by_cases hc : l.space = .cmyk <;> simp [hc]

theorem keys_base (l : Look) (indexed : Bool) (rgb : Option Nat) (space : Space) (bpc : Nat) :
    ((imageBase l indexed rgb space bpc).map fun p => lit p.1).Sublist [lit "Type", lit "Subtype", lit "Width", lit "Height",
      lit "ColorSpace", lit "Decode", lit "BitsPerComponent", lit "Filter"] := by
  unfold imageBase
  rw [List.map_append, List.map_append]
  exact ((List.Sublist.refl [lit "Type", lit "Subtype", lit "Width", lit "Height"]).append (keys_space l indexed rgb space)).append
    (List.Sublist.refl [lit "BitsPerComponent", lit "Filter"])

theorem keys_imageDict (l : Look) (info : ImgInfo) (s r : Option Nat) (n : Nat) :
    ((imageDict l info s r ++ [("Length", nat n)]).map fun p => lit p.1).Nodup := by
  refine List.Nodup.sublist (l₂ := imageKeys) ?_ (by decide +kernel)
  rw [List.map_append]
  refine List.Sublist.append (l₂ := [lit "Type", lit "Subtype", lit "Width", lit "Height", lit "ColorSpace", lit "Decode",
    lit "BitsPerComponent", lit "Filter", lit "DecodeParms", lit "Mask", lit "SMask"]) (r₂ := [lit "Length"]) ?_ (List.Sublist.refl _)
  unfold imageDict
  by_cases hm : info.isMask
  · simp only [hm, if_true, List.map_append]
    refine List.Sublist.append (r₂ := [lit "DecodeParms", lit "Mask", lit "SMask"]) (keys_base _ _ _ _ _) ?_
    simp [pngParms]
  · simp only [hm, Bool.false_eq_true, if_false, List.map_append, List.append_assoc]
    refine List.Sublist.append (r₂ := [lit "DecodeParms", lit "Mask", lit "SMask"]) (keys_base _ _ _ _ _) ?_
    refine List.Sublist.append (l₂ := [lit "DecodeParms"]) (r₂ := [lit "Mask", lit "SMask"]) ?_ ?_
    · cases l.jpeg <;> simp [pngParms]
    · cases info.split
      · simp only [Bool.false_eq_true, if_false, List.map_append]
        refine List.Sublist.append (l₂ := [lit "Mask"]) (r₂ := [lit "SMask"]) ?_ ?_
        · by_cases ht : l.trns = [] <;> simp [ht]
        · cases info.alpha <;> simp
      · simp

theorem keyed_keys (l : List (String × Val)) : (keyed l).map (·.1) = l.map fun p => lit p.1 := by simp [keyed]

/-- The dictionary of an image and the end of it. -/
theorem imgProps_reads (l : Look) (info : ImgInfo) (s r : Option Nat) (n : Nat) :
    Reads ((if info.isMask then maskProps l info.indexed r else imgProps l info s r) ++
      (lit "\t" ++ (lit "/Length " ++ (dec n ++ lit "\n>>\n")))) (D (imageDict l info s r ++ [("Length", nat n)])) := by
  have hk := keys_imageDict l info s r n
  rw [← keyed_keys] at hk
  unfold Reads
  by_cases hm : info.isMask
  · simp only [hm, if_true, maskProps, List.append_assoc]
    rw [run_baseProps, run_maskParms]
    run_simp
    refine close_top (ps := _) (D_keyed _) ?_ hk
    simp only [imageDict, hm, if_true, keyed_append, entries_append, List.append_assoc]
    simp [keyed, entries, ObjectValue.nat]
  · simp only [hm, Bool.false_eq_true, if_false, imgProps, List.append_assoc]
    rw [run_baseProps]
    have hp : ∀ (st : List Entry) (b : Bytes), run st ((if l.jpeg then [] else parms l.colors l.bpc l.w) ++ b) =
        run (onStack (entries (keyed (if l.jpeg then [] else pngParms l.colors l.bpc l.w))) ++ st) b := by
      intro st b
      cases l.jpeg
      · simp only [Bool.false_eq_true, if_false]; exact run_parms _ _ _ st b
      · rfl
    have ha : ∀ (st : List Entry) (b : Bytes), run st ((if info.alpha then lit "\t/SMask " ++ (ref (s.getD 0 + 1) ++ lit "\n") else []) ++ b) =
        run (onStack (entries (keyed (if info.alpha then [("SMask", Val.ref (s.getD 0 + 1))] else []))) ++ st) b := by
      intro st b
      cases info.alpha
      · rfl
      · simp only [if_true]
        run_simp
        simp [onStack, entries, keyed]
    have hs : ∀ (st : List Entry) (b : Bytes), run st ((if info.split then [] else colourKey l.trns ++
        (if info.alpha then lit "\t/SMask " ++ (ref (s.getD 0 + 1) ++ lit "\n") else [])) ++ b) =
        run (onStack (entries (keyed (if info.split then [] else
          (if l.trns = [] then [] else [("Mask", .arr (l.trns.flatMap fun t => [nat t.toNat, nat t.toNat]))]) ++
          (if info.alpha then [("SMask", .ref (s.getD 0 + 1))] else [])))) ++ st) b := by
      intro st b
      cases info.split
      · simp only [Bool.false_eq_true, if_false, List.append_assoc]
        rw [run_colourKey, ha, keyed_append, entries_append, onStack_append, List.append_assoc]
      · rfl
    rw [hp, hs]
    run_simp
    refine close_top (ps := _) (D_keyed _) ?_ hk
    simp only [imageDict, hm, Bool.false_eq_true, if_false, keyed_append, entries_append, List.append_assoc]
    simp [keyed, entries, ObjectValue.nat]

theorem smaskProps_reads (l : Look) (n : Nat) : Reads (smaskProps l ++ (lit "/Length " ++ (dec n ++ lit "\n>>\n")))
    (D (imageBase { l with space := .gray } false none .gray 8 ++ pngParms 1 8 l.w ++ [("Length", nat n)])) := by
  unfold Reads smaskProps
  simp only [List.append_assoc]
  rw [run_baseProps, run_smaskParms]
  run_simp
  refine close_top (ps := _) (D_keyed _) ?_ ?_
  · simp only [keyed_append, entries_append, List.append_assoc]
    simp [keyed, entries, ObjectValue.nat]
  · simp only [keyed, imageBase, imageSpace, pngParms, Bool.false_eq_true, if_false, reduceCtorEq, List.append_nil, List.map_append, List.map_cons,
      List.map_nil]
    decide +kernel

theorem run_group (st : List Entry) (b : Bytes) : run st (lit "\t/Group<</CS /DeviceGray /S /Transparency>>\n" ++ b) =
    run (.val (D [("CS", N "DeviceGray"), ("S", N "Transparency")]) :: .val (.name (lit "Group")) :: st) b := by
  rw [run_gap lex_106]
  push_lit
  rw [closeDict_entries (ps := keyed [("CS", N "DeviceGray"), ("S", N "Transparency")]) (by simp [keyed, entries, N]) (by decide +kernel)]
  rfl

theorem groupProps_reads (b : Box) (n : Nat) : Reads (groupProps b ++ (lit "\t" ++ (lit "/Length " ++ (dec n ++ (lit "\n" ++ lit ">>\n")))))
    (D [("FormType", nat 1), ("Subtype", N "Form"), ("Type", N "XObject"),
      ("Matrix", .arr ([1, 0, 0, 1, 0, 0].map nat)), ("BBox", box 3 b),
      ("Group", D [("CS", N "DeviceGray"), ("S", N "Transparency")]), ("Length", nat n)]) := by
  unfold Reads groupProps
  run_simp
  rw [run_group]
  run_simp
  exact close_top rfl (by same) (by keys)

end Verif.PdfObject
