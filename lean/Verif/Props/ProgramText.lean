import Verif.Lemmas.Program.Text
import Verif.Props.ProgramResources
import Verif.Props.ToUnicode
/- C59: the text of a program, extracted from its file. -/
set_option maxRecDepth 10000
namespace Verif.Props
open Doc Objects ObjectValue PdfObject FileReader Viewer

/-- What a font's map from characters to glyphs is: filled by AddChars, characters of the Basic Multilingual Plane, two-byte glyph
numbers. -/
def MapOK (m : TTF.CharMap) : Prop :=
  (∃ src, CharHistory src m) ∧ (∀ k ∈ m.keys, k < 65536 ∧ IsScalar k) ∧ ∀ g ∈ m.vals, g < 65536

theorem fam_start (prot : Bool) (ml mt : ℚ) : Program.FamOK (Program.start prot ml mt) 0 := by
  intro i c hi
  simp [Program.start, Doc.start] at hi

theorem font_base (e : Objects.Env) (d : Doc) (i f a b cid uni : Nat) :
    (objVal e d i (.font f a b cid uni)).get (lit "BaseFont") = some (.name (subsetName (e.family f))) := by
  simp only [objVal]; lookup

/-- The codes on the pages of the file are those of the characters asked for. -/
theorem page_codes {e : Objects.Env} {ce : Content.Env} {prot : Bool} {ml mt : ℚ} {prog : List Program.Call} {s : Program.St}
    {d : Doc} {c : Decoder} (h : Output e ce prot ml mt prog s d c) (hnu : NoUL d) :
    ∃ pages, view c (file e d) = some pages ∧ pages.length = prog.countP Program.isPage ∧
      ∀ (k : Nat) page o, pages[k]? = some (page, o) →
        shown none [] o = (Program.asked ce (k + 1) 0 0 (Program.start prot ml mt) prog).filterMap (Program.code ce) ∧
        ∃ n cs ls r, d.objAt n = some (.page cs ls r) ∧ page = objVal e d (n - 1) (.page cs ls r) := by
  obtain ⟨ps, h1, h2, h3, h4⟩ := program_view h
  refine ⟨ps, h1, h2, fun k page o hk => ?_⟩
  obtain ⟨⟨-, q1⟩, q2⟩ := h4 k page o hk
  refine ⟨?_, q2⟩
  have hitems := program_items h
  have hcodes := Program.steps_codes (k + 1) prog 0 _ s h.run (by rfl)
  rw [show Content.styles ce ((Program.start prot ml mt).content.pages.getD (k + 1) []) = [] by
    simp [Program.start, Content.start, Content.styles], List.map_nil, List.nil_append,
    show (Program.start prot ml mt).content.page = 0 from rfl] at hcodes
  rw [Program.shown_near q1, Program.shown_page, ← hcodes]
  have hfont : ∀ t, Content.Item.text t ∈ s.content.pages.getD (k + 1) [] → 0 < t.font := by
    intro t ht
    rw [List.getD_eq_getElem?_getD] at ht
    cases hx : s.content.pages[k + 1]? with
    | none => simp [hx] at ht
    | some p =>
      rw [hx] at ht
      obtain ⟨x, _, hx'⟩ := (hitems p (List.mem_of_getElem? hx) _ ht).1 hnu
      omega
  generalize s.content.pages.getD (k + 1) [] = items at hfont
  induction items with
  | nil => rfl
  | cons i items ih =>
    have ih' := ih (fun t ht => hfont t (by simp [ht]))
    simp only [Content.styles, List.flatMap_cons, List.map_append] at ih' ⊢
    rw [ih']
    congr 1
    cases i with
    | text t =>
      have := hfont t (by simp)
      simp only [Program.codes1, Content.styles1, List.map_map]
      refine List.map_congr_left fun g _ => ?_
      simp only [Function.comp_apply, Content.itemStyle]
      rw [Nat.sub_add_cancel this]
    | _ => rfl

/-- **C59** Text drawn can be extracted from the file.  A viewer that goes through the operators of a page and reads every code shown
through the `/ToUnicode` map of the font it is shown in gets the text of the Text and Cell calls made on that page, character by
character and in order, and finds each in a font named after the family chosen by the last SetFont. -/
theorem text_extracted {e : Objects.Env} {ce : Content.Env} {prot : Bool} {ml mt : ℚ} {prog : List Program.Call} {s : Program.St}
    {d : Doc} {c : Decoder} (h : Output e ce prot ml mt prog s d c)
    (hu : ∀ f st, Program.Call.object (.addFont f st true) ∈ prog → noUnderline st = st)
    (hcm : ∀ r ∈ d.relFonts, e.cmap r.index = TextRun.toUnicode (ce.fonts (r.count + 1)).run.map)
    (hmap : ∀ n, MapOK (ce.fonts n).run.map)
    (hglyph : ∀ k, ∀ a ∈ Program.asked ce k 0 0 (Program.start prot ml mt) prog,
      ∃ g, (ce.fonts a.number).run.map.val a.char = some g ∧ ∀ r, (ce.fonts a.number).run.map.val r = some g → r = a.char) :
    ∃ pages, view c (file e d) = some pages ∧ pages.length = prog.countP Program.isPage ∧
      ∀ (k : Nat) page o, pages[k]? = some (page, o) →
        (Program.asked ce (k + 1) 0 0 (Program.start prot ml mt) prog).map (·.char) = Program.textOn (k + 1) 0 prog ∧
        List.Forall₂ (fun p a => ReadAs c (file e d) page p (subsetName (e.family a.family)) a.char) (shown none [] o)
          (Program.asked ce (k + 1) 0 0 (Program.start prot ml mt) prog) := by
  have hnu := program_nounderline h hu
  obtain ⟨ps, h1, h2, h4⟩ := page_codes h hnu
  refine ⟨ps, h1, h2, fun k page o hk => ⟨Program.asked_text _ _ _ _ _ _ h.run, ?_⟩⟩
  obtain ⟨hshown, n, cs, ls, r, q2, rfl⟩ := h4 k page o hk
  have hr0 := Program.res_start prot ml mt
  rw [hshown]
  have hnamed := Program.asked_named (e := ce) (k + 1) prog 0 0 _ s h.run hr0 (fam_start prot ml mt)
  have hg := hglyph (k + 1)
  have hdd : d = exec s.doc [.compile] := by
    rw [h.doc, exec_append, show s.doc = exec (start prot) (Program.docOps 1 prog) from (Program.steps_doc prog _ s h.run).1]
  have hreach := (Program.Res.steps prog _ s hr0 h.run).reach
  have hgrow : Grow s.doc d := by rw [hdd]; exact grow_exec (reachable_base hreach) _
  have hext : Ext s.doc d := by rw [hdd]; exact exec_ext _ _
  generalize Program.asked ce (k + 1) 0 0 (Program.start prot ml mt) prog = l at hnamed hg
  clear hshown
  have hc := h.compiled
  obtain ⟨page, data, p0, p1, -⟩ := resources_in_file hc n cs ls r q2
  rw [hc.object q2 trivial, Option.some.injEq, Prod.mk.injEq] at p0
  obtain ⟨p0, -⟩ := p0
  subst p0
  have hres := reachable_res hc.reachable
  induction l with
  | nil => exact .nil
  | cons a l ih =>
    obtain ⟨g, hv, huniq⟩ := hg a (by simp)
    obtain ⟨x, x1, x2, x3⟩ := hnamed a (by simp) (hnu.ext hext)
    have x1 := hgrow.fonts.subset x1
    have hcode : Program.code ce a = some (a.number, g) := by simp [Program.code, hv]
    rw [List.filterMap_cons, hcode]
    refine .cons ?_ (ih (fun b hb => hnamed b (by simp [hb])) (fun b hb => hg b (by simp [hb])))
    obtain ⟨st, ci, u, y1, y2⟩ := hres.fontObj x x1
    obtain ⟨ob, a1, a2⟩ := objAt_ident y1
    cases ob <;> simp [Obj.ident] at a2
    next f' s' k' cid' uni' =>
    have hden := denotes_of' (nodup_counts (by simp [Doc.fontNames]) hres.fontCount) (List.mem_map.2 ⟨x, x1, rfl⟩ : (x.count + 1, x.index + 1) ∈ d.fontNames)
    have hfile := font_in_file hc c h.md5 h.key _ _ _ _ _ _ a1
    refine ⟨x.index + 1, _, _, _, ?_, hc.object a1 trivial, font_type _ _ _ _ _ _ _ _, ?_, hfile.2.1, ?_⟩
    · have := p1 _ _ hden
      simpa only [x2] using this
    · rw [font_base, a2.1, x3]
    · simp only [Nat.add_sub_cancel]
      rw [hcm x x1, ← x2]
      obtain ⟨⟨src, m1⟩, m2, m3⟩ := hmap a.number
      obtain ⟨r', z1, z2, z3⟩ := toUnicode_maps m1 m2 m3 hv
      rwa [z3 huniq] at z2

end Verif.Props
