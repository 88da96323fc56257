import Verif.Props.EmbedTotal
import Verif.Props.TypesetExample
/- Writing the fonts of a program does not fail (C82). -/
set_option maxRecDepth 10000
namespace Verif.Props
open Doc Objects Typeset FontFile

/-- **C82** Whatever text a program writes and measures, and with however many fonts: if the font files its caller gives
are good and complete, the subset of every font of the document can be made when the file is written - nothing is read
outside the font file, no glyph is copied past the room made for the glyphs. -/
theorem fonts_are_embedded {base : Content.Env} {prot : Bool} {ml mt : ℚ} {prog : List Typeset.Call} {s : Typeset.St}
    {calls : List Program.Call} (run : Typeset.steps base (Typeset.start prot ml mt) prog = some (s, calls))
    (ok : ∀ x ∈ prog, x.Ok)
    (faces : ∀ f st face, Typeset.Call.addFont f st face ∈ prog → accepted face = true → GoodFace face ∧ Complete face.file)
    {i f st k cid u : Nat} (hi : s.prog.doc.idents[i]? = some (.font f st k cid u)) :
    ∃ l b, s.fonts i = some l ∧ l.subset = .ok b := by
  have hr := reg_final prog [] _ s calls (inv_start base prot ml mt) ok (reg_start prot ml mt) run
  have hinv := (steps_sim prog _ s calls (inv_start base prot ml mt) ok run).1
  obtain ⟨face, h1, h2, h3⟩ := font_given hr hi
  obtain ⟨l, hl, rfl⟩ := Option.map_eq_some_iff.1 h3
  obtain ⟨hf, hc⟩ := faces f st _ h1 h2
  have hg := hinv.good _ _ hl
  have hp := load_font hg.load
  obtain ⟨b, hb⟩ := Embed.embedding_succeeds hf.file hc hp (Embed.parseFont_ok hf.file.tags hp).glyphs (vals := l.map.vals) (by
    intro g hgm
    obtain ⟨_, hlen, hval, _⟩ := char_map_consistent hg.history
    obtain ⟨j, hj, hje⟩ := List.getElem_of_mem hgm
    exact (good_glyph hf hg ((hval (l.map.keys[j]'(by omega)) g).2 ⟨j, List.getElem?_eq_getElem _, by rw [List.getElem?_eq_getElem hj, hje]⟩)).2.1)
  exact ⟨l, b, hl, hb⟩

/-- The hypotheses of `fonts_are_embedded` hold for the program of `TypesetExample`; object 8 is its font. -/
example : ∃ l b, typeResult.1.fonts 8 = some l ∧ l.subset = .ok b := by
  have hC : Complete face.file := Embed.complete_of_check face_distinct face_parsed (by decide +kernel)
  have hi : ∃ f st k cid u, typeResult.1.prog.doc.idents[8]? = some (.font f st k cid u) := by
    have : (match typeResult.1.prog.doc.idents[8]? with | some (.font _ _ _ _ _) => true | _ => false) = true := by decide +kernel
    revert this
    split
    · next h => exact fun _ => ⟨_, _, _, _, _, h⟩
    · simp
  obtain ⟨f, st, k, cid, u, hi⟩ := hi
  refine fonts_are_embedded type_run type_ok ?_ hi
  intro f st fc hm _
  simp [typeProgram] at hm
  obtain ⟨rfl, rfl, rfl⟩ := hm
  exact ⟨face_good, hC⟩

end Verif.Props
