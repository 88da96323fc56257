import Verif.Props.FontMaker
import Verif.Props.TypesetExample
/- C87 on concrete map files and a concrete font. -/
set_option maxRecDepth 10000
namespace Verif.Props
open Verif.FontMaker Verif.PdfObject Verif.Encoding Verif.MapFile
open Verif.TTF Verif.CmapSpec Verif.FontFile Verif.Typeset

theorem line_A : Line (lit "!41 U+0041 A") ⟨65, 65, lit "A"⟩ := by
  refine ⟨lit "41", lit "0041", ?_, ?_, by decide, ⟨by decide, by decide⟩, by decide +kernel⟩
  · exact .more (s := [52]) (n := 4) (v := 1) (.one (.inl (by decide))) (.inl (by decide))
  · exact .more (s := [48, 48, 52]) (n := 4) (v := 1) (.more (s := [48, 48]) (n := 0) (v := 4) (.more (s := [48]) (n := 0) (v := 0)
      (.one (.inl (by decide))) (.inl (by decide))) (.inl (by decide))) (.inl (by decide))

theorem line_B : Line (lit "!1 U+C A") ⟨1, 12, lit "A"⟩ := by
  refine ⟨lit "1", lit "C", ?_, ?_, by decide, ⟨by decide, by decide⟩, by decide +kernel⟩
  · exact .one (.inl (by decide))
  · exact .one (.inr (.inl (by decide)))

/-- A map file that names code 65 where the base names nothing: the encoding reads back. -/
example : ∃ maps ref v t, loadMap [lit "!41 U+0041 A"] = .ok maps ∧ loadMap [] = .ok ref ∧
      readObject (encodingObj (makeFontEncoding (fun c => (maps.getD c notdef).name) (fun c => (ref.getD c notdef).name)) ++
        (lit "endobj\n" ++ [])) = some (v, none) ∧
      table (nameOf []) v = some t ∧ ∀ c, c < 256 → t c = nameOf [⟨65, 65, lit "A"⟩] c :=
  map_file_encoding (.cons line_A .nil) .nil (by decide) []

/-- A map file that names code 1 where the base names nothing has no valid encoding. -/
example : ∃ v, readObject (encodingObj (makeFontEncoding (nameOf [⟨1, 12, lit "A"⟩]) (nameOf [])) ++ (lit "endobj\n" ++ [])) = some (v, none) ∧
    table (nameOf []) v = none := by
  refine encoding_reads_fails (fun c _ => ?_) (by decide) (by decide) []
  by_cases h : 1 = c
  · subst h; exact ⟨by decide, by decide⟩
  · have : nameOf [⟨1, 12, lit "A"⟩] c = lit ".notdef" := by simp [nameOf, entry, h]
    rw [this]; exact ⟨by decide, by decide⟩

theorem face_order : InOrder faceFile := by
  intro cm cl off sc hT hr hf
  rw [face_cmap_at hT] at hr hf ⊢
  rw [(face_record hr).2] at hf ⊢
  rw [face_format4 hf]
  intro i j e s hij hj he hs
  obtain ⟨rfl, rfl⟩ : i = 0 ∧ j = 1 := by omega
  have he := u16_ok.2 he
  have hs := u16_ok.2 hs
  rw [show TTF.u16 faceFile (280 + 12 + 14 + 2 * 0) = .ok 66 by decide +kernel] at he
  rw [show TTF.u16 faceFile (280 + 12 + 16 + 2 * 2 + 2 * 1) = .ok 65535 by decide +kernel] at hs
  cases he; cases hs; decide

/-- A font and a table of codes that meet the conditions of `definition_widths`. -/
example : ∃ i : Info, load faceFile false = .ok i ∧
    ∃ v u w g, (widths i.font i.font.cmap.chars [⟨65, lit "A"⟩, notdef])[0]? = some v ∧ CodeGlyph faceFile ⟨65, lit "A"⟩ g ∧
      UnitsPerEm faceFile u ∧ Advance faceFile g w ∧ Rounded u w v := by
  have hex : (load faceFile false).toOption.isSome = true := by decide +kernel
  cases h : load faceFile false with
  | error e => rw [h] at hex; simp [Except.toOption] at hex
  | ok i =>
    refine ⟨i, rfl, ?_⟩
    have := (definition_widths h face_distinct face_cmap face_order (fun n hn => ?_) [⟨65, lit "A"⟩, notdef]).2 0 ⟨65, lit "A"⟩ rfl
    · exact this
    · have P := face_parsed.glyphs
      have : n = 3 := by
        obtain ⟨p, l, h1, h2⟩ := hn
        obtain ⟨p', l', h1', h2'⟩ := P
        obtain ⟨rfl, rfl⟩ := Embed.HasTable_fun face_distinct h1 h1'
        rw [U16_fun h2 h2']
        decide +kernel
      subst this
      exact ⟨by decide, fun r g => face_gives⟩

end Verif.Props
