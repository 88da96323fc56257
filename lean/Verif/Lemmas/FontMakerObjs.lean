import Verif.Lemmas.FontMakerDesc
/- Reading the other objects of a font with a definition. -/
namespace Verif.FontMaker
open PdfObject

theorem nl (st : List Entry) (b : Bytes) : run st (lit "\n" ++ b) = run st b :=
  run_then (ts := []) (by decide +kernel) rfl

theorem widths_value (cw : List Int) : Reads (lit "[" ++ (cw2Str cw ++ lit "]\n"))
    (.arr (((List.range 224).map (· + 32)).map fun i => .num (cw.getD i 0 : Int))) := by
  have ho : feedAll .gap (lit "[") = some ([.arrOpen], .gap) := by decide +kernel
  have hc : feedAll .gap (lit "]\n") = some ([.arrClose], .gap) := by decide +kernel
  unfold Reads cw2Str
  rw [run_then ho (st1 := [.arrOpen]) rfl, List.append_assoc, lit_space]
  have h := run_flatMap (fun i => decInt (cw.getD i 0) ++ lit " ") (fun i => [Val.num (cw.getD i 0 : Int)]) ((List.range 224).map (· + 32))
    (by
      intro i _ st
      rw [run_decInt _ (by rfl), show lit " " = lit " " ++ [] from rfl, lit_space]
      rfl) [.arrOpen]
  rw [flatMap_single] at h
  rw [run_append h, run_end hc]
  generalize ((List.range 224).map (· + 32)).map (fun i => Val.num (cw.getD i 0 : Int)) = l
  simp only [pushAll, push, closeArr_onStack, List.append_nil, closeArr_open, Option.bind_some]

def fontEntries (name : Bytes) (w d e : Nat) : List (Bytes × Val) :=
  [(lit "Type", .name (lit "Font")), (lit "Subtype", .name (lit "TrueType")), (lit "BaseFont", .name name),
   (lit "FirstChar", .num (32 : Nat)), (lit "LastChar", .num (255 : Nat)), (lit "Widths", .ref w), (lit "FontDescriptor", .ref d),
   (lit "Encoding", .ref e)]

theorem font_value {name : Bytes} (hn : NameChars name) (w d e : Nat) :
    Reads (fontObj name w d e) (.dict (fontEntries name w d e)) := by
  have h1 : feedAll .gap (lit "<<\n  /Type /Font\n  /Subtype /TrueType\n  /BaseFont /") =
    some ([.dictOpen, .name (lit "Type"), .name (lit "Font"), .name (lit "Subtype"), .name (lit "TrueType"), .name (lit "BaseFont")],
      .name []) := by decide +kernel
  have h2 : feedAll .gap (lit "  /FirstChar 32 /LastChar 255\n") =
    some ([.name (lit "FirstChar"), .word (dec 32), .name (lit "LastChar"), .word (dec 255)], .gap) := by decide +kernel
  have h3 : feedAll .gap (lit "  /Widths ") = some ([.name (lit "Widths")], .gap) := by decide +kernel
  have h4 : feedAll .gap (lit "  /FontDescriptor ") = some ([.name (lit "FontDescriptor")], .gap) := by decide +kernel
  have h5 : feedAll .gap (lit "  /Encoding ") = some ([.name (lit "Encoding")], .gap) := by decide +kernel
  have h6 : feedAll .gap (lit ">>\n") = some ([.dictClose], .gap) := by decide +kernel
  have num : ∀ (n : Nat) (st : List Entry), push st (.word (dec n)) = some (.val (.num (n : ℚ)) :: st) := fun n st =>
    push_number (isNum_dec n).2.2 st
  unfold Reads fontObj
  rw [run_name h1 rfl hn (by rfl), nl, run_then h2 (by simp only [pushAll, num, push, Option.bind_some]; rfl), run_then h3 rfl, run_ref _ (by rfl), nl,
    run_then h4 rfl, run_ref _ (by rfl), nl, run_then h5 rfl, run_ref _ (by rfl), nl, run_end h6]
  simp only [List.nil_append, pushAll, push, closeDict_val]
  exact close_top (ps := fontEntries name w d e) rfl rfl (by simp only [fontEntries, List.map_cons, List.map_nil]; decide +kernel)

def fileEntries (n size : Nat) : List (Bytes × Val) :=
  [(lit "Length", .num n), (lit "Filter", .name (lit "FlateDecode")), (lit "Length1", .num size)]

theorem file_value (n size : Nat) : Reads (lit "<</Length " ++ (dec n ++ (lit "\n" ++ (lit "/Filter /FlateDecode\n" ++
    (lit "/Length1 " ++ (dec size ++ (lit "\n" ++ lit ">>\n"))))))) (.dict (fileEntries n size)) := by
  have h1 : feedAll .gap (lit "<</Length ") = some ([.dictOpen, .name (lit "Length")], .gap) := by decide +kernel
  have h2 : feedAll .gap (lit "/Filter /FlateDecode\n") = some ([.name (lit "Filter"), .name (lit "FlateDecode")], .gap) := by decide +kernel
  have h3 : feedAll .gap (lit "/Length1 ") = some ([.name (lit "Length1")], .gap) := by decide +kernel
  have h6 : feedAll .gap (lit ">>\n") = some ([.dictClose], .gap) := by decide +kernel
  unfold Reads
  rw [run_then h1 rfl, run_dec _ (by rfl), nl, run_then h2 rfl, run_then h3 rfl, run_dec _ (by rfl), nl, run_end h6]
  simp only [pushAll, push, closeDict_val]
  exact close_top (ps := fileEntries n size) rfl rfl (by simp only [fileEntries, List.map_cons, List.map_nil]; decide +kernel)

end Verif.FontMaker
