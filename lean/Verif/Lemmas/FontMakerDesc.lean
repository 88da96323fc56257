import Verif.Lemmas.FontMaker
/- Reading the font descriptor of a font definition. -/
namespace Verif.FontMaker
open PdfObject

theorem run_key {st : List Entry} {k b : Bytes} (hk : NameChars k) :
    run st (lit "/" ++ (k ++ (lit " " ++ b))) = run (.val (.name k) :: st) b := by
  rw [run_slash hk (by rfl), lit_space]

theorem run_int {st : List Entry} {k b : Bytes} (z : Int) (hk : NameChars k) :
    run st (lit "/" ++ (k ++ (lit " " ++ (decInt z ++ lit " "))) ++ b) = run (.val (.num z) :: .val (.name k) :: st) b := by
  simp only [List.append_assoc]
  rw [run_key hk, run_decInt z (by rfl), lit_space]

theorem run_box {st : List Entry} {k b : Bytes} (x0 y0 x1 y1 : Int) (hk : NameChars k) :
    run st (lit "/" ++ (k ++ (lit " " ++ ((lit "[" ++ (decInt x0 ++ (lit " " ++ (decInt y0 ++ (lit " " ++ (decInt x1 ++ (lit " " ++
     (decInt y1 ++ lit "]")))))))) ++ lit " "))) ++ b) =
    run (.val (.arr [.num x0, .num y0, .num x1, .num y1]) :: .val (.name k) :: st) b := by
  have ho : feedAll .gap (lit "[") = some ([.arrOpen], .gap) := by decide +kernel
  have hc : feedAll .gap (lit "]") = some ([.arrClose], .gap) := by decide +kernel
  simp only [List.append_assoc]
  rw [run_key hk, run_then ho rfl, run_decInt _ (by rfl), lit_space, run_decInt _ (by rfl), lit_space, run_decInt _ (by rfl), lit_space,
    run_decInt _ (by rfl), run_then hc (st1 := .val (.arr [.num x0, .num y0, .num x1, .num y1]) :: .val (.name k) :: st) (by rfl), lit_space]

/-- The object as a value. -/
def descEntries (name : Bytes) (x : Definition) (file : Nat) : List (Bytes × Val) :=
  [(lit "Type", .name (lit "FontDescriptor")), (lit "FontName", .name name), (lit "Ascent", .num x.ascender),
   (lit "Descent", .num x.descender), (lit "CapHeight", .num x.capHeight), (lit "Flags", .num x.flags),
   (lit "FontBBox", .arr [.num x.box.1, .num x.box.2.1, .num x.box.2.2.1, .num x.box.2.2.2]), (lit "ItalicAngle", .num x.italicAngle),
   (lit "StemV", .num ((if x.bold then 120 else 70 : Int))), (lit "MissingWidth", .num x.missingWidth), (lit "FontFile2", .ref file)]

theorem descriptor_value {name : Bytes} (hn : NameChars name) (x : Definition) (n : Nat) :
    Reads (fontDescriptorObj name x.items n) (.dict (descEntries name x n)) := by
  unfold Reads fontDescriptorObj Definition.items
  have hl : feedAll .gap (lit "<</Type /FontDescriptor /FontName /") =
    some ([.dictOpen, .name (lit "Type"), .name (lit "FontDescriptor"), .name (lit "FontName")], .name []) := by decide +kernel
  have hf : feedAll .gap (lit "/FontFile2 ") = some ([.name (lit "FontFile2")], .gap) := by decide +kernel
  have he : feedAll .gap (lit ">>\n") = some ([.dictClose], .gap) := by decide +kernel
  have k : ∀ w ∈ [lit "Ascent", lit "Descent", lit "CapHeight", lit "Flags", lit "FontBBox", lit "ItalicAngle", lit "StemV",
      lit "MissingWidth"], NameChars w := by unfold NameChars; decide +kernel
  rw [run_name hl rfl hn (by rfl), lit_space]
  simp only [List.flatMap_cons, List.flatMap_nil, List.append_nil]
  rw [List.append_assoc, run_int _ (k _ (by simp)), List.append_assoc, run_int _ (k _ (by simp)), List.append_assoc, run_int _ (k _ (by simp)),
    List.append_assoc, run_int _ (k _ (by simp)), List.append_assoc, run_box _ _ _ _ (k _ (by simp)), List.append_assoc,
    run_int _ (k _ (by simp)), List.append_assoc, run_int _ (k _ (by simp)), run_int _ (k _ (by simp)),
    run_then hf rfl, run_ref n (by rfl), run_end he]
  simp only [List.nil_append, pushAll, push, closeDict_val]
  exact close_top (ps := descEntries name x n) rfl rfl (by simp only [descEntries, List.map_cons, List.map_nil]; decide +kernel)

end Verif.FontMaker
