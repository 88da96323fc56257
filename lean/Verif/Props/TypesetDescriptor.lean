import Verif.Lemmas.Embed.Info
import Verif.Props.Typeset
import Verif.Props.TypesetExample
/- C66: the font descriptor of the file describes the caller's font. -/
set_option maxRecDepth 10000
namespace Verif.Props
open Doc Objects ObjectValue PdfObject FileReader Viewer Typeset

theorem font_descriptor {e : Objects.Env} {prot : Bool} {h : List Op} {d : Doc} (c : Compiled e prot h d)
    (n f s k cid uni : Nat) (ho : d.objAt n = some (.font f s k cid uni)) :
    ∃ v m ff data, descendant (file e d) n = some v ∧ v.get (lit "FontDescriptor") = some (.ref m) ∧
      PdfObject.object (file e d) m = some (objVal e d (n - 3) (.fontDesc ff), data) ∧ 3 ≤ n := by
  have hn := objAt_pos ho
  have hi : d.objs[n - 1]? = some (.font f s k cid uni) := by
    unfold Doc.objAt at ho
    split at ho
    · simp at ho
    · exact ho
  obtain ⟨u, e0, b1, b2, b3, b4, f', s', c', b5⟩ := reachable_parts c.reachable (n - 1) _ (ident_at hi) (by rfl)
  simp only [Obj.ident, place] at e0
  have b5' : Obj.ident (.font f s k cid uni) = .font f' s' c' (u + 3) u := by
    have := ident_at hi
    rw [e0, b5] at this
    exact (Option.some.inj this).symm
  simp only [Obj.ident, Obj.font.injEq] at b5'
  obtain ⟨_, _, _, rfl, rfl⟩ := b5'
  obtain ⟨x3, a3, i3⟩ := objAt_ident b3
  obtain ⟨x4, a4, i4⟩ := objAt_ident b4
  cases x3 <;> simp [Obj.ident] at i3
  cases x4 <;> simp [Obj.ident] at i4
  subst i3 i4
  have q := c.object ho trivial
  have q3 := c.object a3 trivial
  have q4 := c.object a4 trivial
  simp only [Nat.add_sub_cancel] at q3 q4
  refine ⟨objVal e d (uni + 3) (.cidFont (uni + 2)), uni + 2 + 1, uni + 1, storedData e d (uni + 2) (.fontDesc (uni + 1)), ?_, (get_cid e d _ _).1, ?_, by omega⟩
  · simp only [descendant, q, Option.bind_some, (get_font e d _ f s k _ _).1, q4, Option.map_some]
  · rw [q3, show n - 3 = uni + 2 by omega]

theorem desc_gets (e : Objects.Env) (d : Doc) (i ff : Nat) :
    (objVal e d i (.fontDesc ff)).get (lit "Ascent") = some (.num (e.desc (i + 2)).ascent) ∧
    (objVal e d i (.fontDesc ff)).get (lit "CapHeight") = some (.num (e.desc (i + 2)).capHeight) ∧
    (objVal e d i (.fontDesc ff)).get (lit "Descent") = some (.num (e.desc (i + 2)).descent) ∧
    (objVal e d i (.fontDesc ff)).get (lit "FontBBox") = some (.arr [.num (e.desc (i + 2)).bbox.1, .num (e.desc (i + 2)).bbox.2.1,
      .num (e.desc (i + 2)).bbox.2.2.1, .num (e.desc (i + 2)).bbox.2.2.2]) ∧
    (objVal e d i (.fontDesc ff)).get (lit "ItalicAngle") = some (.num (e.desc (i + 2)).italicAngle) ∧
    (objVal e d i (.fontDesc ff)).get (lit "XHeight") = some (.num (e.desc (i + 2)).xHeight) := by
  simp only [objVal]
  refine ⟨?_, ?_, ?_, ?_, ?_, ?_⟩ <;> lookup <;> rfl

/-- **C66** The font descriptor in the file describes the font file the caller passed to AddTTFFont: for every code shown on a page
the descriptor of its font has the bounding box, the italic angle, ascent, descent, height of capitals and of small letters that the
tables of the file give, in thousandths of an em. -/
theorem descriptor_of_callers_font {e : Objects.Env} {base : Content.Env} {prot : Bool} {ml mt : ℚ} {prog : List Typeset.Call} {s : Typeset.St}
    {calls : List Program.Call} {d : Doc} {c : Decoder} (h : Printed e base prot ml mt prog s calls d c) :
    ∃ pages, view c (file e d) = some pages ∧ pages.length = prog.countP startsPage ∧
      ∀ (k : Nat) page o, pages[k]? = some (page, o) →
        List.Forall₂ (fun p w => Described (file e d) page p.1 w.face.file) (shown none [] o) (wishes (k + 1) 0 [] none prog) := by
  refine codes_meet h _ ?_
  intro page x lo w a g f st k cid uni x1 l1 l2 gf good hg l4 hres a1
  obtain ⟨v, m, ff, data, v1, v2, v3, v4⟩ := font_descriptor h.output.compiled _ _ _ _ _ _ a1
  obtain ⟨b, -, -, -, -, -, -, b7⟩ := h.fonts x.index lo l1
  have P := load_ok gf.file.tags good.load
  obtain ⟨g1, g2, g3, g4, g5, g6⟩ := desc_gets e d (x.index + 1 - 3) ff
  rw [show x.index + 1 - 3 + 2 = x.index by omega, b7] at g1 g2 g3 g4 g5 g6
  rw [l2] at P
  have rd := fun v => toPdf_rounded lo.info v
  refine ⟨x.index + 1, v, m, _, data, _, hres, v1, v2, v3, P.em, ?_, ⟨_, P.angle, g5⟩, _, P.version, ⟨_, P.cap, _, g2, rd _⟩, ?_, ?_, ?_⟩
  · obtain ⟨c1, c2, c3, c4⟩ := P.box
    exact ⟨_, _, _, _, c1, c2, c3, c4, _, _, _, _, g4, rd _, rd _, rd _, rd _⟩
  · intro hv
    refine ⟨_, P.xHeight hv, fun hx => ⟨_, g6, ?_⟩⟩
    have : lo.info.os2.xHeight = lo.info.xHeight := by unfold TTF.Info.xHeight; rw [if_pos ⟨hv, hx⟩]
    rw [this]; exact rd _
  · refine ⟨_, P.typoAsc, lo.info.ascender, ?_, _, g1, rd _⟩
    unfold TTF.Info.ascender
    split
    · exact P.asc
    · exact ⟨_, P.winAsc, rfl⟩
  · refine ⟨_, _, P.typoDesc, P.desc, lo.info.descender, ?_, _, g3, rd _⟩
    unfold TTF.Info.descender
    split
    · rfl
    · exact ⟨_, P.winDesc, rfl⟩

/-- The descriptor of the example: its numbers, in thousandths of an em of 2048 units, from `type_printed`. -/
example : (typeEnv.desc 8).ascent = 366 ∧ (typeEnv.desc 8).descent = -88 ∧ (typeEnv.desc 8).capHeight = 317 ∧ (typeEnv.desc 8).xHeight = 220 ∧
    (typeEnv.desc 8).italicAngle = -9 ∧ (typeEnv.desc 8).bbox = (-5, -10, 439, 391) := by decide +kernel

example := descriptor_of_callers_font type_printed

end Verif.Props
