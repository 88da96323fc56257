import Verif.Props.FontMakerDesc
import Verif.Props.FontMakerExample
/- C87: definitions made of concrete fonts. -/
set_option maxRecDepth 10000
namespace Verif.Props
open Verif.FontMaker Verif.PdfObject Verif.Encoding
open Verif.TTF Verif.CmapSpec Verif.FontFile Verif.Typeset

theorem face_count : ∀ n, NumGlyphs faceFile n → 0 < n := by
  intro n hn
  obtain ⟨p, l, h1, h2⟩ := hn
  obtain ⟨p', l', h1', h2'⟩ := face_parsed.glyphs
  obtain ⟨rfl, rfl⟩ := Embed.HasTable_fun face_distinct h1 h1'
  rw [U16_fun h2 h2']
  decide +kernel

/-- A font of which a definition is made, and whose descriptor reads back. -/
example : ∃ x, getInfo faceFile [notdef] = .ok x ∧ ∃ v, readObject (fontDescriptorObj (lit "F") x.items 7 ++ (lit "endobj\n" ++ [])) = some (v, none) ∧
    DescribesFont v faceFile := by
  have hex : (getInfo faceFile [notdef]).toOption.isSome = true := by decide +kernel
  cases h : getInfo faceFile [notdef] with
  | error e => rw [h] at hex; simp [Except.toOption] at hex
  | ok x =>
    obtain ⟨-, -, h3⟩ := definition_describes h face_distinct face_count
    obtain ⟨v, v1, -, -, -, v2⟩ := h3 (lit "F") 7 [] ⟨by decide, by decide⟩
    exact ⟨x, rfl, v, v1, v2⟩

/-- The font with the licence bits 1 (restricted: it must not be embedded) and 8 (no subsets). -/
def restrictedFile : Bytes := (faceFile.set 196 1).set 197 2

/-- **C87** (a defect) The licence is compared as a whole: a font whose usage permission (the lowest four bits of `fsType`) is
"restricted licence" is taken if another bit, like "no subsetting", is set too. -/
theorem restricted_refused_fails : (∃ t, Unsigned restrictedFile "OS/2" 8 t ∧ t % 16 = 2) ∧ ∃ x, getInfo restrictedFile [] = .ok x := by
  constructor
  · refine ⟨258, ⟨188, 90, Embed.table_of (s := 100467738) ⟨11, 0, u16_ok.1 (by decide +kernel), by decide, by decide +kernel,
      u32_ok.1 (by decide +kernel), u32_ok.1 (by decide +kernel), u32_ok.1 (by decide +kernel)⟩, u16_ok.1 (by decide +kernel)⟩, by decide⟩
  · have hex : (getInfo restrictedFile []).toOption.isSome = true := by decide +kernel
    cases h : getInfo restrictedFile [] with
    | error e => rw [h] at hex; simp [Except.toOption] at hex
    | ok x => exact ⟨x, rfl⟩

end Verif.Props
