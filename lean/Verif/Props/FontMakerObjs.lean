import Verif.Lemmas.FontMakerObjs
import Verif.Lemmas.Objects.Data
import Verif.Props.FontMakerDesc
/- The other objects of a font with a definition (property C87). -/
namespace Verif.Props
open Verif.FontMaker Verif.PdfObject Verif.Encoding Verif.ObjectValue

/-- **C87** The array of widths reads back as 224 numbers, and number `k` is the width of the code `32 + k`: `FirstChar` to `LastChar`. -/
theorem definition_width_array (cw : List Int) (rest : Bytes) :
    ∃ ws : List Val, readObject ((lit "[" ++ (cw2Str cw ++ lit "]\n")) ++ (lit "endobj\n" ++ rest)) = some (.arr ws, none) ∧ ws.length = 224 ∧
      ∀ k, k < 224 → ws[k]? = some (.num (cw.getD (32 + k) 0 : Int)) := by
  refine ⟨_, read_plain' (widths_value cw), by rw [List.length_map, List.length_map, List.length_range], fun k hk => ?_⟩
  rw [List.getElem?_map, List.getElem?_map, List.getElem?_range hk]
  simp only [Option.map_some, Nat.add_comm k 32]

/-- **C87** The font object reads back as a simple font with the name, the codes 32 to 255 and references to its widths, its descriptor and
its encoding.  For every name of regular characters and all object numbers. -/
theorem definition_font (name : Bytes) (w d e : Nat) (hn : GlyphName name) (rest : Bytes) :
    ∃ v, readObject (fontObj name w d e ++ (lit "endobj\n" ++ rest)) = some (v, none) ∧
      v.get (lit "Type") = some (.name (lit "Font")) ∧ v.get (lit "Subtype") = some (.name (lit "TrueType")) ∧
      v.get (lit "BaseFont") = some (.name name) ∧ v.get (lit "FirstChar") = some (.num (32 : Nat)) ∧
      v.get (lit "LastChar") = some (.num (255 : Nat)) ∧ v.get (lit "Widths") = some (.ref w) ∧
      v.get (lit "FontDescriptor") = some (.ref d) ∧ v.get (lit "Encoding") = some (.ref e) :=
  ⟨_, read_plain' (font_value (nameChars hn) w d e), rfl, rfl, rfl, rfl, rfl, rfl, rfl, rfl⟩

/-- **C87** The object of the font file reads back as a stream whose data are the compressed file — in a protected document, the
compressed file encrypted — with its length, its filter and the length of the font file. -/
theorem definition_file (cip : Option (Bytes → Bytes)) (b : Bytes) (size : Nat) (hc : ∀ f, cip = some f → (f b).length = b.length) (rest : Bytes) :
    ∃ v, readObject (embedFontObj cip b size ++ (lit "endobj\n" ++ rest)) = some (v, some ((cip.getD id) b)) ∧
      v.get (lit "Filter") = some (.name (lit "FlateDecode")) ∧ v.get (lit "Length1") = some (.num size) := by
  have hl : ∀ n : Nat, (Val.dict (fileEntries n size)).streamLength = some n := by
    intro n
    exact PdfObject.streamLength_D (l := [("Length", nat n), ("Filter", .name (lit "FlateDecode")), ("Length1", nat size)])
      (by simp only [List.map_cons, List.map_nil]; decide +kernel) (by simp)
  have key : ∀ data : Bytes, data.length = b.length → ∀ eol : Bytes, (∀ x ∈ eol, ContentReader.isWhite x = true) →
      readObject _ = some (.dict (fileEntries b.length size), some data) :=
    fun data hd eol he => read_stream' (data := data) (eol := eol) (rest := rest) (file_value b.length size) (by rw [hl, hd]) he
  refine ⟨.dict (fileEntries b.length size), ?_, rfl, rfl⟩
  have e1 : lit "\nendstream\n" = lit "\n" ++ lit "endstream\n" := by decide +kernel
  cases cip with
  | none =>
    have := key b rfl (lit "\n") (by decide +kernel)
    simp only [List.append_assoc] at this
    simp only [embedFontObj, e1, List.append_assoc]
    exact this
  | some f =>
    have := key (f b) (hc f rfl) (lit "\n" ++ lit "\n") (by decide +kernel)
    simp only [List.append_assoc] at this
    simp only [embedFontObj, e1, List.append_assoc]
    exact this

/-- A protected file object, and a name. -/
example : ∃ v, readObject (embedFontObj (some fun b => b.map (· + 1)) [1, 2] 3 ++ (lit "endobj\n" ++ [])) = some (v, some [2, 3]) :=
  let ⟨v, h, _⟩ := definition_file (some fun b => b.map (· + 1)) [1, 2] 3 (by rintro f ⟨⟩; rfl) []
  ⟨v, h⟩

example : GlyphName (lit "Fo-1") := ⟨by decide +kernel, by decide +kernel⟩

end Verif.Props
