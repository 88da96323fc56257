import Verif.Lemmas.Program.Wishes
import Verif.Props.Embed
import Verif.Props.ProgramText
/- C64: the text of a program, drawn in the fonts its caller gave. -/
set_option maxRecDepth 10000
namespace Verif.Props
open Doc Objects ObjectValue PdfObject FileReader Viewer Typeset

/-- The file of a program given with its font files: `s` is the state after its calls, `calls` what they drew.  The environment
prints the pages from what was drawn, and of every font its subset (compressed), widths, character map and descriptor. -/
structure Printed (e : Objects.Env) (base : Content.Env) (prot : Bool) (ml mt : ℚ) (prog : List Typeset.Call) (s : Typeset.St)
    (calls : List Program.Call) (d : Doc) (c : Decoder) : Prop where
  run : Typeset.steps base (Typeset.start prot ml mt) prog = some (s, calls)
  render : e.render = Program.render (s.env base) calls s.prog
  doc : d = exec s.prog.doc [.compile]
  fonts : ∀ i l, s.fonts i = some l → ∃ b, l.subset = .ok b ∧ b.length < 2 ^ 32 ∧ c.inflate (e.fontFile i).1 = some b ∧
    (e.fontFile i).2 = b.length ∧ e.widths i = l.widths ∧ e.cmap i = TextRun.toUnicode l.map ∧ e.desc i = l.desc
  /-- text is valid Unicode -/
  ok : ∀ x ∈ prog, x.Ok
  faces : ∀ f st face, Typeset.Call.addFont f st face ∈ prog → accepted face = true → GoodFace face ∧ noUnderline st = st
  templates : ∀ sx sy tx ty name, Typeset.Call.other (.plain (.template sx sy tx ty name)) ∈ prog → ContentReader.TemplateName name
  /-- no font is without a number -/
  base : ∀ n, Content.TwoByte (base.fonts n)
  sound : Sound e
  names : PlainNames e
  info : ∀ i ∈ e.info, InfoOK i
  size : (file e d).length < 10 ^ 10
  /-- the viewer knows the key and how to decompress -/
  md5 : c.md5 = e.md5
  key : c.key = e.key
  inflate : ∀ z, e.deflate = some z → ∀ b, c.inflate (z b) = some b

section
variable {e : Objects.Env} {base : Content.Env} {prot : Bool} {ml mt : ℚ} {prog : List Typeset.Call} {s : Typeset.St}
  {calls : List Program.Call} {d : Doc} {c : Decoder}

theorem Printed.inv (h : Printed e base prot ml mt prog s calls d c) : Typeset.Inv base s :=
  (steps_sim prog _ s calls (inv_start base prot ml mt) h.ok h.run).1

theorem Printed.given (h : Printed e base prot ml mt prog s calls d c) {i f st k cid u : Nat}
    (hi : s.prog.doc.idents[i]? = some (.font f st k cid u)) : ∃ l, s.fonts i = some l ∧ GoodFace l.face ∧ noUnderline st = st := by
  have hr := reg_final prog [] _ s calls (inv_start base prot ml mt) h.ok (reg_start prot ml mt) h.run
  obtain ⟨face, h1, h2, h3⟩ := font_given hr hi
  obtain ⟨l, hl, rfl⟩ := Option.map_eq_some_iff.1 h3
  exact ⟨l, hl, h.faces f st _ h1 h2⟩

theorem Printed.noUL (h : Printed e base prot ml mt prog s calls d c) : NoUL s.prog.doc := fun _ _ _ _ _ _ hi => (h.given hi).choose_spec.2.2

theorem Printed.steps (h : Printed e base prot ml mt prog s calls d c) :
    Program.steps (s.env base) (Program.start prot ml mt) calls = some s.prog :=
  (steps_sim prog _ s calls (inv_start base prot ml mt) h.ok h.run).2.2.2.2 h.noUL _ (Covers.self base h.inv.res.reach)

/-- The fonts in the resources were given by the caller. -/
theorem Printed.rel (h : Printed e base prot ml mt prog s calls d c) {r : RelFont} (hr : r ∈ s.prog.doc.relFonts) :
    ∃ l, s.fonts r.index = some l ∧ GoodFace l.face ∧ Typeset.Good l := by
  obtain ⟨st, k, u, h1, -⟩ := (reachable_res h.inv.res.reach).fontObj r hr
  obtain ⟨l, l1, l2, -⟩ := h.given h1
  exact ⟨l, l1, l2, h.inv.good _ _ l1⟩

theorem good_glyph {l : Typeset.Loaded} (hf : GoodFace l.face) (hg : Typeset.Good l) {r g : Nat} (h : l.map.val r = some g) :
    Stands l.face r g ∧ g < l.info.font.nGlyphs ∧ g < 65536 := by
  have hs := stands hf hg.load hg.history (.inl rfl) h
  have hn := (Embed.parseFont_ok hf.file.tags (load_font hg.load)).glyphs
  have := stands_lt hf hn hs
  obtain ⟨m, ml, _, hu⟩ := hn
  have := TTF.U16_lt hu
  exact ⟨hs, by assumption, by omega⟩

theorem Printed.twoByte (h : Printed e base prot ml mt prog s calls d c) (n : Nat) : Content.TwoByte ((s.env base).fonts n) := by
  show Content.TwoByte (fontNo base.fonts s.prog.doc.relFonts s.fonts n)
  unfold fontNo
  split
  · exact h.base n
  · next r hr =>
    obtain ⟨l, l1, l2, l3⟩ := h.rel (List.mem_of_find?_eq_some hr)
    rw [l1]
    exact fun r g hg => (good_glyph l2 l3 hg).2.2

theorem other_mem : ∀ (prog : List Typeset.Call) (s s' : Typeset.St) (calls : List Program.Call), Typeset.steps base s prog = some (s', calls) →
    ∀ k, Program.Call.plain k ∈ calls → Typeset.Call.other (.plain k) ∈ prog
  | [], s, s', calls, h, k, hk => by
    simp only [Typeset.steps, Option.some.injEq, Prod.mk.injEq] at h
    obtain ⟨rfl, rfl⟩ := h
    simp at hk
  | x :: prog, s, s', calls, h, k, hk => by
    obtain ⟨s1, pk, calls', h1, h2, rfl⟩ := Typeset.steps_cons h
    rcases List.mem_append.1 hk with hk | hk
    · rcases step_inv h1 with ⟨rfl, -⟩ | ⟨pc, rfl, -, h3⟩
      · simp at hk
      · simp only [Option.toList, List.mem_singleton] at hk
        subst hk
        cases x with
        | addFont f st face => simp only [St.prepare] at h3; split at h3 <;> simp at h3
        | other c =>
          simp only [St.prepare] at h3
          split at h3
          · simp only [Option.some.injEq, Prod.mk.injEq] at h3
            rw [h3.2]; simp
          · cases h3
        | _ =>
          simp only [St.prepare, Option.map_eq_some_iff] at h3
          obtain ⟨_, _, he⟩ := h3
          simp at he
    · exact List.mem_cons_of_mem _ (other_mem prog s1 s' calls' h2 k hk)

theorem Printed.output (h : Printed e base prot ml mt prog s calls d c) : Output e (s.env base) prot ml mt calls s.prog d c where
  run := h.steps
  render := h.render
  doc := by
    rw [h.doc, exec_append, show s.prog.doc = exec (start prot) (Program.docOps 1 calls) from (Program.steps_doc calls _ s.prog h.steps).1]
  sound := h.sound
  names := h.names
  info := h.info
  size := h.size
  md5 := h.md5
  key := h.key
  inflate := h.inflate
  glyphs := h.twoByte
  templates := fun sx sy tx ty name hm => h.templates sx sy tx ty name (other_mem prog _ s calls h.run _ hm)

theorem font_encoding (e : Objects.Env) (d : Doc) (i f a b cid uni : Nat) :
    (objVal e d i (.font f a b cid uni)).get (lit "Subtype") = some (.name (lit "Type0")) ∧
    (objVal e d i (.font f a b cid uni)).get (lit "Encoding") = some (.name (lit "Identity-H")) := by
  simp only [objVal]
  constructor <;> lookup <;> rfl

theorem cid_noMap (e : Objects.Env) (d : Doc) (i desc : Nat) : (objVal e d i (.cidFont desc)).get (lit "CIDToGIDMap") = none := by
  simp only [objVal]; lookup; try rfl

theorem font_descendant {e : Objects.Env} {prot : Bool} {h : List Op} {d : Doc} (c : Compiled e prot h d)
    (n f s k cid uni : Nat) (ho : d.objAt n = some (.font f s k cid uni)) :
    ∃ v, descendant (file e d) n = some v ∧ v.get (lit "CIDToGIDMap") = none := by
  have hn := objAt_pos ho
  have hi : d.objs[n - 1]? = some (.font f s k cid uni) := by
    unfold Doc.objAt at ho
    split at ho
    · simp at ho
    · exact ho
  obtain ⟨u, e0, b1, b2, b3, b4, f', s', c', b5⟩ := reachable_parts c.reachable (n - 1) _ (ident_at hi) (by rfl)
  simp only [Obj.ident, place] at e0
  have b5' : Obj.ident (.font f s k cid uni) = .font f' s' c' (u + 3) u := by
    have := ident_at hi
    rw [e0, b5] at this
    exact (Option.some.inj this).symm
  simp only [Obj.ident, Obj.font.injEq] at b5'
  obtain ⟨_, _, _, rfl, rfl⟩ := b5'
  obtain ⟨x4, a4, i4⟩ := objAt_ident b4
  cases x4 <;> simp [Obj.ident] at i4
  subst i4
  have q := c.object ho trivial
  have q4 := c.object a4 trivial
  simp only [Nat.add_sub_cancel] at q4
  exact ⟨objVal e d (uni + 3) (.cidFont (uni + 2)),
    by simp only [descendant, q, Option.bind_some, (get_font e d _ f s k _ _).1, q4, Option.map_some], cid_noMap e d _ _⟩

/-- The widths written for a font. -/
theorem widths_of {l : Typeset.Loaded} (hf : GoodFace l.face) (hg : Typeset.Good l) {r g : Nat} (h : l.map.val r = some g) :
    ∃ w, PdfWidth l.face.file g w ∧ (g, w) ∈ l.widths ∧ ∀ w', (g, w') ∈ l.widths → w' = w := by
  obtain ⟨w, w1, w2⟩ := glyphWidth_ok hf hg.load g
  have hmem : g ∈ l.map.vals := by
    obtain ⟨i, -, hi⟩ := ((char_map_consistent hg.history).2.2.1 r g).1 h
    exact List.mem_of_getElem? hi
  refine ⟨w, w2, List.mem_map.2 ⟨g, hmem, by rw [w1]⟩, fun w' hw' => ?_⟩
  obtain ⟨g', -, he⟩ := List.mem_map.1 hw'
  simp only [Prod.mk.injEq] at he
  obtain ⟨rfl, he⟩ := he
  rw [w1] at he
  exact he.symm

/-- Codes and wishes, page by page: what holds of every code and its wish. -/
theorem codes_meet (h : Printed e base prot ml mt prog s calls d c) (P : Val → Nat × Nat → Wish → Prop)
    (key : ∀ page x lo w a g f st k cid uni, x ∈ s.prog.doc.relFonts → s.fonts x.index = some lo → lo.face = w.face → GoodFace lo.face →
      Typeset.Good lo → lo.map.val a = some g → (a = w.char ∨ (TTF.glyphOf lo.info.font.cmap w.char = .error .notFound ∧ a = lo.face.subst w.char)) →
      resource (file e d) page "Font" (lit "F" ++ dec (x.count + 1)) = some (x.index + 1) →
      d.objAt (x.index + 1) = some (.font f st k cid uni) → P page (x.count + 1, g) w) :
    ∃ pages, view c (file e d) = some pages ∧ pages.length = prog.countP startsPage ∧
      ∀ (k : Nat) page o, pages[k]? = some (page, o) → List.Forall₂ (P page) (shown none [] o) (wishes (k + 1) 0 [] none prog) := by
  have ho := h.output
  have hx : Ext s.prog.doc d := by rw [h.doc]; exact exec_ext _ _
  have hgrow : Grow s.prog.doc d := by rw [h.doc]; exact grow_exec (reachable_base h.inv.res.reach) _
  have hnu : NoUL d := by
    intro i f st k cid uni hi
    rw [h.doc] at hi
    refine font_styles (P := fun st => noUnderline st = st) [.compile] s.prog.doc (reachable_base h.inv.res.reach) (by simp) ?_ f st k cid uni
      (List.mem_of_getElem? hi)
    intro f st k cid uni hm
    obtain ⟨j, hj, hjo⟩ := List.getElem_of_mem hm
    exact h.noUL j f st k cid uni (by rw [List.getElem?_eq_getElem hj, hjo])
  obtain ⟨ps, h1, h2, h4⟩ := page_codes ho hnu
  refine ⟨ps, h1, by rw [h2, count_pages prog _ s calls h.run], fun k page o hk => ?_⟩
  obtain ⟨hshown, n, cs, ls, r, q2, rfl⟩ := h4 k page o hk
  rw [hshown]
  have hall := wishes_asked (k + 1) prog 0 0 [] none _ s calls (inv_start base prot ml mt) h.ok (reg_start prot ml mt) (cur_start prot ml mt) h.run
    h.noUL (s.env base) (Covers.self base h.inv.res.reach)
  rw [show (Typeset.start prot ml mt).prog = Program.start prot ml mt from rfl] at hall
  generalize Program.asked (s.env base) (k + 1) 0 0 (Program.start prot ml mt) calls = l at hall
  generalize wishes (k + 1) 0 [] none prog = ws at hall
  have hc := ho.compiled
  obtain ⟨page, data, p0, p1, -⟩ := resources_in_file hc n cs ls r q2
  rw [hc.object q2 trivial, Option.some.injEq, Prod.mk.injEq] at p0
  obtain ⟨p0, -⟩ := p0
  subst p0
  have hres := reachable_res hc.reachable
  clear hshown hk h4
  induction hall with
  | nil => exact .nil
  | @cons w a ws l hwa _ ih =>
    obtain ⟨x, x1, x2, lo, l1, l2, l3, l4⟩ := hwa
    obtain ⟨g, hg⟩ := Option.isSome_iff_exists.1 l3
    obtain ⟨lo', l1', gf, good⟩ := h.rel x1
    rw [l1, Option.some.injEq] at l1'
    subst l1'
    have hfont : (s.env base).fonts a.number = lo.font := by
      rw [x2]; exact fontNo_mem _ (counts_nodup h.inv.res.reach) x1 l1
    have hcode : Program.code (s.env base) a = some (a.number, g) := by
      simp only [Program.code, hfont, Loaded.font, hg, Option.map_some]
    rw [List.filterMap_cons, hcode]
    refine .cons ?_ ih
    have x1' := hgrow.fonts.subset x1
    obtain ⟨st, ci, u, y1, y2⟩ := hres.fontObj x x1'
    obtain ⟨ob, a1, a2⟩ := objAt_ident y1
    cases ob <;> simp [Obj.ident] at a2
    next f' s' k' cid' uni' =>
    have hden := denotes_of' (nodup_counts (by simp [Doc.fontNames]) hres.fontCount) (List.mem_map.2 ⟨x, x1', rfl⟩ : (x.count + 1, x.index + 1) ∈ d.fontNames)
    rw [x2]
    exact key _ x lo w _ g _ _ _ _ _ x1 l1 l2 gf good hg l4 (p1 _ _ hden) a1

/-- **C64** Text is drawn with the glyphs of the caller's fonts.  On every page of the file a viewer meets exactly one code for each
character the caller wrote on that page, in order; the code draws the outline of the glyph that the font file passed to AddTTFFont
(the one the last SetFont selected) gives the character, and advances by the width the file has for that glyph.  A character the
font does not have is drawn as the substitute, and as glyph 0 if the font has no glyph for that either. -/
theorem text_in_callers_fonts (h : Printed e base prot ml mt prog s calls d c) :
    ∃ pages, view c (file e d) = some pages ∧ pages.length = prog.countP startsPage ∧
      ∀ (k : Nat) page o, pages[k]? = some (page, o) →
        List.Forall₂ (fun p w => ∃ g, Stands w.face w.char g ∧ DrawsAs c (file e d) page p w.face.file g) (shown none [] o)
          (wishes (k + 1) 0 [] none prog) := by
  refine codes_meet h _ ?_
  intro page x lo w a g f' s' k' cid' uni' x1 l1 l2 gf good hg l4 hres a1
  refine ⟨g, ?_, ?_⟩
  · rw [← l2]; exact stands gf good.load good.history l4 hg
  have hc := h.output.compiled
  have hfile := font_in_file hc c h.md5 h.key _ _ _ _ _ _ a1
  obtain ⟨cid, hcid, hmap⟩ := font_descendant hc _ _ _ _ _ _ a1
  simp only [Nat.add_sub_cancel] at hfile
  obtain ⟨b, b1, b2, b3, b4, b5, b6, b7⟩ := h.fonts x.index lo l1
  obtain ⟨wd, wd1, wd2, wd3⟩ := widths_of gf good hg
  obtain ⟨hst, hlt, -⟩ := good_glyph gf good hg
  have hp := load_font good.load
  have hn := (Embed.parseFont_ok gf.file.tags hp).glyphs
  have hv : g ∈ lo.map.vals := by
    obtain ⟨i, -, hi⟩ := ((char_map_consistent good.history).2.2.1 _ g).1 hg
    exact List.mem_of_getElem? hi
  rw [← l2]
  refine ⟨x.index + 1, _, _, cid, b, lo.widths, wd, hres, hc.object a1 trivial, (font_encoding _ _ _ _ _ _ _ _).1, (font_encoding _ _ _ _ _ _ _ _).2,
    hcid, hmap, by rw [hfile.1, b3], Embed.outline_exists gf.file hn hlt, fun o => ?_, fun n' y o hn' hy hyn => ?_, by rw [hfile.2.2, b5], wd1, wd2, wd3⟩
  · exact Embed.drawn_glyph_outline gf.file hp b1 b2 hn hlt (.inl hv) o
  · have := Embed.numGlyphs_unique gf.file.tags hn hn'
    exact Embed.drawn_glyph_outline gf.file hp b1 b2 hn (by omega) (.inr (.inr ⟨g, hv, hy⟩)) o

end
end Verif.Props
