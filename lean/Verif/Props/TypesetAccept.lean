import Verif.Lemmas.Embed.Panic
import Verif.Lemmas.Program.Typeset
import Verif.Props.DocShared
/- C77: which font files AddTTFFont takes. -/
namespace Verif.Props
open TTF CmapSpec FontFile Embed Typeset

/-- **C77** The font files on which the theorems about the caller's fonts speak (`accepted`) are those that are complete: the
signature of a TrueType file, a complete directory, the tables `head`, `hhea`, `maxp`, `hmtx`, `cmap` with a complete subtable for
the Basic Multilingual Plane, `name` with a PostScript name, `OS/2`, `post`, `loca`, and a complete `kern` if kerning is asked for.
The directory has no tag twice; the file is shorter than 2^62 bytes. -/
theorem accepted_iff (face : Face) (hsize : face.file.length < 2 ^ 62) (hd : DistinctTags face.file) :
    accepted face = true ↔ Acceptable face.file face.useKerning := by
  rw [← ok_load hsize hd]
  unfold accepted Ok
  cases load face.file face.useKerning <;> simp

/-- **C77** AddTTFFont of a complete font file succeeds in every state of the document, and the document has the font. -/
theorem complete_font_taken (base : Content.Env) (s : Typeset.St) (family style : Nat) (face : Face)
    (hsize : face.file.length < 2 ^ 62) (hd : DistinctTags face.file) (h : Acceptable face.file face.useKerning) :
    ∃ s', Typeset.step base s (.addFont family style face) = some (s', some (.object (.addFont family style true))) ∧
      (s.prog.doc.objs.length + 5, family, style) ∈ fontsOf s'.prog.doc := by
  obtain ⟨i, hi⟩ := (ok_load hsize hd).2 h
  have hp : s.prepare (.addFont family style face) =
      some (Function.update s.fonts (s.prog.doc.objs.length + 4) (some ⟨face, i, CharMap.empty⟩), some (.object (.addFont family style true))) := by
    simp only [St.prepare, hi]
  have hs : ∀ e, Program.step e s.prog (.object (.addFont family style true)) =
      some { s.prog with doc := s.prog.doc.addFont family style, next := s.prog.next + 1 } := by
    intro e
    simp [Program.step, Program.docOp, Program.objectOp, Doc.step, Program.contentCall]
  refine ⟨_, by simp only [Typeset.step, hp, hs, Option.map_some]; rfl, ?_⟩
  unfold fontsOf
  rw [List.mem_filterMap]
  have hget : ((s.prog.doc.addFont family style).objs)[s.prog.doc.objs.length + 4]? =
      some (.font family style (if !s.prog.doc.relFonts.any (fun r => r.family = family ∧ r.style = Doc.noUnderline style) then s.prog.doc.fontCount else 0)
        (s.prog.doc.objs.length + 3) s.prog.doc.objs.length) := by
    unfold Doc.Doc.addFont
    simp only []
    split
    · simp only [Doc.Doc.upd, Doc.Doc.add, List.append_assoc, List.cons_append, List.nil_append]
      rw [List.getElem?_modify, List.getElem?_append_right (by omega)]
      rw [show s.prog.doc.objs.length + 4 - s.prog.doc.objs.length = 4 by omega]
      simp [Doc.Obj.addFontRel]
    · simp only [Doc.Doc.add, List.append_assoc, List.cons_append, List.nil_append]
      rw [List.getElem?_append_right (by omega), show s.prog.doc.objs.length + 4 - s.prog.doc.objs.length = 4 by omega]
      simp
  refine ⟨s.prog.doc.objs.length + 4, ?_, ?_⟩
  · rw [List.mem_range]; exact (List.getElem?_eq_some_iff.1 hget).1
  · simp only [Doc.Doc.objAt, Nat.add_eq_zero_iff, OfNat.ofNat_ne_zero, and_false, one_ne_zero, ↓reduceIte, Nat.add_sub_cancel, hget]

/-- **C77** AddTTFFont of a font file that is not complete returns an error and changes nothing, in every state of the document -
provided `hhea` announces at least one advance width, or the font has no glyphs. -/
theorem incomplete_font_refused (base : Content.Env) (s : Typeset.St) (family style : Nat) (face : Face)
    (hsize : face.file.length < 2 ^ 62) (hd : DistinctTags face.file)
    (hw : ∀ p l g, HasTable face.file (lit "hhea") p l → U16 face.file (p + 34) 0 → NumGlyphs face.file g → g = 0)
    (h : ¬ Acceptable face.file face.useKerning) :
    ∃ s', Typeset.step base s (.addFont family style face) = some (s', some (.object (.addFont family style false))) ∧
      s'.prog.doc = s.prog.doc ∧ s'.prog.content = s.prog.content ∧ s'.fonts = s.fonts := by
  have hs := safe_load (k := face.useKerning) hd hw
  have hp : s.prepare (.addFont family style face) = some (s.fonts, some (.object (.addFont family style false))) := by
    cases hl : load face.file face.useKerning with
    | ok i => exact absurd ((ok_load hsize hd).1 ⟨i, hl⟩) h
    | error e =>
      cases e with
      | panic => exact absurd hl hs
      | err => simp only [St.prepare, hl]
      | notFound => simp only [St.prepare, hl]
  have hst : ∀ e, Program.step e s.prog (.object (.addFont family style false)) = some { s.prog with next := s.prog.next + 1 } := by
    intro e
    simp [Program.step, Program.docOp, Program.objectOp, Doc.step]
  exact ⟨⟨{ s.prog with next := s.prog.next + 1 }, s.fonts⟩, by simp only [Typeset.step, hp, hst, Option.map_some], rfl, rfl, rfl⟩

end Verif.Props
