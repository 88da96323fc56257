import Verif.Lemmas.Program.Place
import Verif.Props.TextLookExample
import Verif.Props.TypesetMeasureExample
/- C71: where the text of a program is in the file. -/
set_option maxRecDepth 10000
namespace Verif.Props
open Doc Objects ObjectValue PdfObject FileReader Viewer Typeset
open ContentReader (NearPt)

section
variable {e : Objects.Env} {base : Content.Env} {prot : Bool} {ml mt : ℚ} {prog : List Typeset.Call} {s : Typeset.St}
  {calls : List Program.Call} {d : Doc} {c : Decoder}

/-- Consecutive characters in one font, at the end of the program. -/
theorem Printed.instead (h : Printed e base prot ml mt prog s calls d c) {ws : List Wish} {n : Nat} {out : List Nat}
    (hm : List.Forall₂ (fun w r => Meets s w ⟨0, n, r⟩) ws out) (hne : ws ≠ []) :
    ∃ lo, GoodFace lo.face ∧ Good lo ∧ (s.env base).fonts n = lo.font ∧ (∀ w ∈ ws, w.face = lo.face) ∧
      List.Forall₂ (Instead lo) (ws.map (·.char)) out := by
  obtain ⟨x, hx, hxn⟩ : ∃ x ∈ s.prog.doc.relFonts, n = x.count + 1 := by
    cases hm with
    | nil => exact absurd rfl hne
    | cons a _ => obtain ⟨x, a1, a2, -⟩ := a; exact ⟨x, a1, a2⟩
  obtain ⟨lo, l1, gf, good⟩ := h.rel hx
  have same : ∀ w r, Meets s w ⟨0, n, r⟩ → w.face = lo.face ∧ Instead lo w.char r := by
    rintro w r ⟨y, y1, y2, l', m1, m2, m3, m4⟩
    have hxy : y = x := by
      have hnd := counts_nodup h.inv.res.reach
      simp only at y2
      exact List.inj_on_of_nodup_map hnd y1 hx (by omega)
    subst hxy
    rw [l1, Option.some.injEq] at m1
    subst m1
    obtain ⟨g', hg'⟩ := Option.isSome_iff_exists.1 m3
    exact ⟨m2.symm, g', hg', m4⟩
  refine ⟨lo, gf, good, ?_, ?_, ?_⟩
  · rw [hxn]; exact fontNo_mem _ (counts_nodup h.inv.res.reach) hx l1
  · intro w hw
    obtain ⟨i, hi, rfl⟩ := List.getElem_of_mem hw
    exact (same _ _ ((List.forall₂_iff_get.1 hm).2 i hi (by rw [← (List.forall₂_iff_get.1 hm).1]; exact hi))).1
  · rw [List.forall₂_map_left_iff]
    exact hm.imp fun w r hwr => (same w r hwr).2

theorem inked_append (k : Nat) : ∀ (a b : List Typeset.Call) (n : Nat) (x : Setting) (col : Option Paint.Colour),
    inked k n x col (a ++ b) = inked k n x col a ++ inked k (n + a.countP startsPage) (a.foldl Setting.after x) (a.foldl inkAfter col) b
  | [], b, n, x, col => rfl
  | c :: a, b, n, x, col => by
    simp only [List.cons_append, inked, inked_append k a b, List.append_assoc, List.countP_cons, List.foldl_cons]
    congr 3
    split <;> omega

/-- **C71** Text stands in the file where the caller put it.  If SetXY is called, then Text, Cell or CellWithOption with a text that is
not empty, a viewer of the page finds the first character of the text at the beginning of a text object, drawn as the glyph of the
caller's font, at the place set (to half a thousandth of a point): the text of Text on the baseline, that of Cell below it by the
typographical ascent of the font file, that of CellWithOption with a rectangle aligned in it as the option says, the width of the
text being the one its font file gives and its height that between the typographical ascent and descent. -/
theorem text_place_in_file (h : Printed e base prot ml mt prog s calls d c) (hg : ∀ x ∈ prog, NoGrey x)
    (hk : ∀ f st face, Typeset.Call.addFont f st face ∈ prog → accepted face = true → face.useKerning = true → GoodKern face.file)
    {before after : List Typeset.Call} {x y : ℚ} {call : Typeset.Call} (hprog : prog = before ++ .other (.plain (.setXY x y)) :: call :: after)
    {r : Nat} {rest : List Nat} (htext : texts call = r :: rest) {k : Nat} (hpage : before.countP startsPage = k + 1) :
    ∃ pages page o letter p q face space n u asc desc i v g, view c (file e d) = some pages ∧ pages[k]? = some (page, o) ∧
      (letters {} [] .away o)[(wishes (k + 1) 0 [] none before).length]? = some letter ∧
      letter.look.font = some (i, v) ∧ Stands face r g ∧ DrawsAs c (file e d) page (i, letter.code) face.file g ∧
      letter.start = some p ∧ NearPt p q ∧
      (setting before).face = some face ∧ Measures face space none (r :: rest) n ∧
      SpaceFor face.file (setting before).size (Units.toPoints base.cfg (setting before).spacing) space ∧
      UnitsPerEm face.file u ∧ Metric face.file "OS/2" 68 asc ∧ Metric face.file "OS/2" 70 desc ∧
      Placed base.cfg (Units.toPoints base.cfg x, pageHeight before - Units.toPoints base.cfg y) (n * ((setting before).size / 1000))
        (asc * (setting before).size / u) (desc * (setting before).size / u) call q := by
  obtain ⟨pages, h1, h2, h3⟩ := h.spelled hg
  obtain ⟨pages', h1', -, h3'⟩ := text_look_in_file h hg
  obtain rfl : pages = pages' := by rw [h1] at h1'; simpa using h1'
  have hlen : k < pages.length := by
    rw [h2, hprog, List.countP_append, hpage]; omega
  obtain ⟨page, o, hpo⟩ : ∃ page o, pages[k]? = some (page, o) := ⟨pages[k].1, pages[k].2, by rw [List.getElem?_eq_getElem hlen]⟩
  -- the states
  have hrun := h.run
  rw [hprog, Layout.steps_append] at hrun
  obtain ⟨⟨s1, c1⟩, r1, r2⟩ := Option.bind_eq_some_iff.1 hrun
  obtain ⟨⟨sf, c2⟩, r3, r4⟩ := Option.map_eq_some_iff.1 r2
  simp only [Prod.mk.injEq] at r4
  have hsf : sf = s := r4.1
  subst hsf
  obtain ⟨s2, pk2, c3, t1, t2, -⟩ := steps_cons r3
  obtain ⟨s3, pk3, c4, t3, t4, -⟩ := steps_cons t2
  have ok : (∀ x ∈ before, x.Ok) ∧ (Typeset.Call.other (.plain (.setXY x y))).Ok ∧ call.Ok ∧ ∀ x ∈ after, x.Ok := by
    have := h.ok
    rw [hprog] at this
    exact ⟨fun x hx => this x (by simp [hx]), this _ (by simp), this _ (by simp), fun x hx => this x (by simp [hx])⟩
  obtain ⟨ok1, ok2, ok3, ok4⟩ := ok
  obtain ⟨i1, -, -, -, sim1⟩ := steps_sim before _ s1 c1 (inv_start base prot ml mt) ok1 r1
  obtain ⟨i2, g2, x2, f2, sim2⟩ := step_sim i1 ok2 t1
  obtain ⟨i3, g3, x3, f3, sim3⟩ := step_sim i2 ok3 t3
  obtain ⟨i4, g4, x4, f4, -⟩ := steps_sim after s3 sf c4 i3 ok4 t4
  have hu := h.noUL
  have hu3 := hu.ext x4
  have hu2 := hu3.ext x3
  have hu1 := hu2.ext x2
  have cov := Covers.self base h.inv.res.reach
  have cov3 := cov.back g4 f4
  have cov2 := cov3.back g3 f3
  have cov1 := cov2.back g2 f2
  obtain ⟨hr1, hc1, hz1⟩ := setting_final before {} _ s1 c1 (inv_start base prot ml mt) ok1 (reg_start prot ml mt) (cur_start prot ml mt)
    (size_start base.cfg prot ml mt) r1
  have hh1 := steps_height before _ s1 c1 0 r1 rfl
  have hr2 := step_reg i1 ok2 t1 hr1
  have hc2 := step_select i1 ok2 t1 hr1 hc1
  have hz2 := step_size t1 hr1 hz1
  -- SetXY
  obtain ⟨rfl, hset⟩ : pk2 = some (.plain (.setXY x y)) ∧ Program.step (sf.env base) s1.prog (.plain (.setXY x y)) = some s2.prog := by
    rcases step_inv t1 with ⟨-, -, t, ht⟩ | ⟨pc, hpc, -, hprep⟩
    · cases ht
    · have : pc = .plain (.setXY x y) := by
        simp only [St.prepare] at hprep
        split at hprep
        · simp only [Option.some.injEq, Prod.mk.injEq] at hprep; exact hprep.2.symm
        · cases hprep
      subst this
      refine ⟨hpc, ?_⟩
      have := sim2 hu2 _ cov2
      rw [hpc] at this
      simpa [Program.steps] using this
  have hset' : Content.step (sf.env base) s1.prog.content (.setXY x y) = some s2.prog.content := by
    cases Program.step_made hset with
    | pen a1 z a2 a3 a4 a5 => simp only [Program.contentCall, Option.some.injEq] at a2; rw [← a2] at a4; exact a4
    | err op a1 a2 a3 a5 => simp [Program.docOp, Program.plainCall] at a1
    | quiet op a1 a2 a3 a4 a5 => simp [Program.docOp, Program.plainCall] at a1
    | both op a1 a2 z a3 a4 a5 => simp [Program.docOp, Program.plainCall] at a1
  -- the text
  obtain ⟨pc, rfl, hprep, hput⟩ : ∃ pc, pk3 = some pc ∧ s2.prepare call = some (s3.fonts, some pc) ∧ Program.step (sf.env base) s2.prog pc = some s3.prog := by
    rcases step_inv t3 with ⟨-, -, t, rfl⟩ | ⟨pc, rfl, -, hprep⟩
    · cases htext
    · refine ⟨pc, rfl, hprep, ?_⟩
      simpa [Program.steps] using sim3 hu3 _ cov3
  obtain ⟨m1, m2⟩ := call_meets i2 ok3 t3 hc2 hu3 0
  have hface : ∃ face, (setting before).face = some face := by
    obtain ⟨i, cc, hcur⟩ : ∃ i cc, s2.prog.doc.curFont = some (i, cc) := by
      cases call with
      | text t =>
        simp only [St.prepare, Option.map_eq_some_iff] at hprep
        obtain ⟨⟨a, b⟩, hadd, -⟩ := hprep
        obtain ⟨i, cc, l, hcur, -⟩ := addChars_cases hadd
        exact ⟨i, cc, hcur⟩
      | cell rr t =>
        simp only [St.prepare, Option.map_eq_some_iff] at hprep
        obtain ⟨⟨a, b⟩, hadd, -⟩ := hprep
        obtain ⟨i, cc, l, hcur, -⟩ := addChars_cases hadd
        exact ⟨i, cc, hcur⟩
      | cellWithOption rr t oo tr =>
        simp only [St.prepare, Option.map_eq_some_iff] at hprep
        obtain ⟨⟨a, b⟩, hadd, -⟩ := hprep
        obtain ⟨i, cc, l, hcur, -⟩ := addChars_cases hadd
        exact ⟨i, cc, hcur⟩
      | _ => cases htext
    obtain ⟨l, -, hl⟩ := hc2 i cc hcur
    exact ⟨l.face, hl⟩
  obtain ⟨face, hface⟩ := hface
  have m3 : List.Forall₂ (fun w z => Meets sf w ⟨0, s2.prog.content.cur.font + 1, z⟩) ((texts call).map fun z => ⟨face, z⟩) (Program.written pc) := by
    have m1' : List.Forall₂ (Meets s3) (wishes1 (setting before).face call) ((Program.written pc).map fun r => ⟨0, s2.prog.content.cur.font + 1, r⟩) := m1
    rw [hface] at m1'
    rw [List.forall₂_map_right_iff] at m1'
    exact m1'.imp fun w z hz => hz.later g4 f4
  obtain ⟨lo, gf, good, hfont, hsame, hinst⟩ := h.instead m3 (by rw [htext]; simp)
  have hlo : face = lo.face := hsame ⟨face, r⟩ (by rw [htext]; simp)
  subst hlo
  rw [List.map_map, show (Wish.char ∘ fun z => (⟨lo.face, z⟩ : Wish)) = id from rfl, List.map_id] at hinst
  obtain ⟨z0, zs, hw⟩ : ∃ z0 zs, Program.written pc = z0 :: zs := by
    have := hinst.length_eq
    rw [htext] at this
    cases hz : Program.written pc with
    | nil => rw [hz] at this; simp at this
    | cons a b => exact ⟨a, b, rfl⟩
  obtain ⟨cx, cell, rect, align, k1, k2, k3⟩ := text_content hprep (by rw [htext]; simp) (by rw [hw]; simp) hput
  -- the item
  have hst1 := Program.steps_content c1 _ s1.prog (sim1 hu1 _ cov1)
  have hmeas := steps_measured _ _ _ hst1 (by simp [Typeset.start, Program.start, Content.start])
  obtain ⟨p1, p2⟩ : s1.prog.content.page + 1 = s1.prog.content.pages.length ∧ s1.prog.content.page = k + 1 := by
    obtain ⟨a, b⟩ := Program.steps_page c1 _ s1.prog (sim1 hu1 _ cov1) rfl
    refine ⟨a, ?_⟩
    rw [b, count_pages before _ s1 c1 r1, hpage]
    exact Nat.zero_add _
  obtain ⟨t, q1, q2, q3, q4, q5, q6, q7, q8, q9, q10, q11, q12⟩ := Content.fresh_item (fun p hp t ht => (hmeas p hp t ht).2) (by omega) hset' k1 k2
  have hplaced := item_placed (c := call) (rect := rect) q2 (by rw [q6]; exact k3) q5 q11
  -- the characters of the page
  obtain ⟨new1, n1, n2⟩ := inked_signs (k + 1) before {} none _ s1 c1 (inv_start base prot ml mt) ok1 (reg_start prot ml mt) (cur_start prot ml mt)
    (size_start base.cfg prot ml mt) rfl rfl r1 hu1 (sf.env base) cov1
  rw [show Content.signsOf (sf.env base) ((Typeset.start prot ml mt).prog.content.pages.getD (k + 1) []) = [] by
    simp [Typeset.start, Program.start, Content.start, Content.signsOf], List.nil_append] at n1
  have pg2 := Program.step_page hset p1
  have pg3 := Program.step_page hput pg2.1
  obtain ⟨new3, n5, -⟩ := inked_signs (k + 1) after _ _ s3 sf c4 i3 ok4 (step_reg i2 ok3 t3 hr2) (step_select i2 ok3 t3 hr2 hc2) (step_size t3 hr2 hz2)
    rfl pg3.1 t4 hu (sf.env base) cov
  have hsigns : Content.signsOf (sf.env base) (sf.prog.content.pages.getD (k + 1) []) =
      new1 ++ (Content.signs (Content.itemStyle t) (some (Content.startOf (sf.env base) t)) (z0 :: zs) ++ new3) := by
    rw [n5, ← p2, q1, Content.signsOf_snoc, p2, n1]
    simp only [Content.signs1, q10, hw, List.append_assoc]
  have hj : (wishes (k + 1) 0 [] none before).length = new1.length := by
    rw [← n2.length_eq, ← inked_wishes (k + 1) before 0 {} none, List.length_map]
    rfl
  -- the file
  have shows := h3 k page o hpo
  rw [hsigns] at shows
  have looks := h3' k page o hpo
  obtain ⟨sl, sg⟩ := List.forall₂_iff_get.1 shows
  have hlt : (wishes (k + 1) 0 [] none before).length < (letters {} [] .away o).length := by
    rw [sl, hj]; simp [Content.signs]
  obtain ⟨z, z1, z2⟩ := sg _ hlt (by rw [← sl]; exact hlt)
  have hsign : (new1 ++ (Content.signs (Content.itemStyle t) (some (Content.startOf (sf.env base) t)) (z0 :: zs) ++ new3))[(wishes (k + 1) 0 [] none before).length]'
      (by rw [← sl]; exact hlt) = ⟨Content.itemStyle t, z0, some (Content.startOf (sf.env base) t)⟩ := by
    simp [hj, Content.signs]
  simp only [List.get_eq_getElem] at z1 z2
  rw [hsign] at z2
  obtain ⟨ll, lg⟩ := List.forall₂_iff_get.1 looks
  have hl := lg _ hlt (by rw [← ll]; exact hlt)
  simp only [List.get_eq_getElem] at hl
  have hsplit : ∃ ink more, inked (k + 1) 0 {} none prog = inked (k + 1) 0 {} none before ++ ink :: more ∧ ink.wish = ⟨lo.face, r⟩ := by
    have hf2 : ((setting before).after (.other (.plain (.setXY x y)))).face = some lo.face := hface
    rw [hprog, inked_append, Nat.zero_add, hpage]
    simp only [inked, show texts (Typeset.Call.other (.plain (.setXY x y))) = [] from rfl,
      show startsPage (Typeset.Call.other (.plain (.setXY x y))) = false from rfl, htext]
    rw [show List.foldl Setting.after {} before = setting before from rfl, hf2, hface]
    simp only [Bool.false_eq_true, if_false, if_true, List.map_cons, List.map_nil, List.nil_append, List.cons_append]
    exact ⟨_, _, rfl, rfl⟩
  obtain ⟨ink, more, hsp, hwish⟩ := hsplit
  have hlenb : (inked (k + 1) 0 {} none before).length = (wishes (k + 1) 0 [] none before).length := by
    rw [← inked_wishes (k + 1) before 0 {} none, List.length_map]
  have hget : (inked (k + 1) 0 {} none prog)[(wishes (k + 1) 0 [] none before).length]'(by rw [← ll]; exact hlt) = ink := by
    simp [hsp, ← hlenb]
  rw [hget, hwish] at hl
  obtain ⟨-, i, v, g, l1, l2, l3⟩ := hl
  have hstart := z1.start
  rw [z2.start] at hstart
  generalize hL : (letters {} [] .away o)[(wishes (k + 1) 0 [] none before).length]'hlt = letter at *
  obtain ⟨p, hp, hnear⟩ : ∃ p, letter.start = some p ∧ NearPt p (Content.startOf (sf.env base) t) := by
    unfold Program.NearPlace at hstart
    split at hstart
    · next hb => simp at hb
    · next p q ha hb => simp only [Option.some.injEq] at hb; exact ⟨p, ha, by rw [hb]; exact hstart⟩
    · exact hstart.elim
  have P := load_ok gf.file.tags good.load
  have hcf : (sf.env base).cfg = base.cfg := rfl
  have hcur : s1.prog.content.cur.font = s2.prog.content.cur.font := by
    simp only [Content.step, Option.some.injEq] at hset'
    rw [← hset']
  have hft : (sf.env base).fonts t.font = lo.font := by rw [q7, hcur]; exact hfont
  rw [hft, q3, q4, q12, q8, hz1.1, hh1, hcf] at hplaced
  obtain ⟨cc, cc1, -, -, cc4⟩ := q2.ok
  rw [hft, q10, q8, q9, hz1.1, hz1.2] at cc1
  unfold Content.createContent at cc1
  split at cc1
  · exact absurd cc1 (by simp)
  next n hn =>
  have hkern : lo.face.useKerning = true → GoodKern lo.face.file := by
    intro huse
    rcases setting_face before {} _ hface with hx | ⟨a, b, hx⟩ | ⟨a, b, hx, hx'⟩
    · cases hx
    · simp at hx
    · exact hk a b _ (by rw [hprog]; simp [hx]) hx' huse
  have hmeasures := sum_measures gf good hkern _ (texts call) _ hinst 0 (0, 0) n hn
  rw [htext] at hmeasures
  have htw : t.textWidth = n * ((setting before).size / 1000) := by
    rw [cc4]
    split at cc1 <;> (simp only [Option.some.injEq] at cc1; rw [← cc1]; rfl)
  rw [htw] at hplaced
  refine ⟨pages, page, o, letter, p, _, lo.face, _, n, _, _, _, i, v, g, h1, hpo, by rw [List.getElem?_eq_getElem hlt, hL], l1, l2, l3, hp, hnear, hface, hmeasures,
    space_for gf good _ _, P.em, P.typoAsc, P.typoDesc, ?_⟩
  rw [typo_eq, typo_eq] at hplaced
  exact hplaced
end

/-- The text of the cell, aligned right and at the bottom in a rectangle of 100 by 20 points at (30, 40): the second character of the
page. -/
example : ∃ pages page o letter p q w asc desc, view ⟨toyMd5, none, some⟩ (file lookEnv lookDoc) = some pages ∧ pages[0]? = some (page, o) ∧
    (letters {} [] .away o)[1]? = some letter ∧ letter.start = some p ∧ NearPt p q ∧
    Placed demoEnv.cfg (30, 760) w asc desc (.cellWithOption (some { w := 100, h := 20 }) [65, 66] { align := 3 } none) q := by
  obtain ⟨pages, page, o, letter, p, q, fc, space, n, u, asc, desc, i, v, g, h1, h2, h3, -, -, -, h7, h8, -, -, -, -, -, -, h9⟩ :=
    text_place_in_file look_printed look_colours (by
      intro f st fc hm _ huse
      simp [lookProgram] at hm
      obtain ⟨-, -, rfl⟩ := hm
      exact face_kern)
    (before := lookProgram.take 7) (after := lookProgram.drop 9) (x := 30) (y := 40) (k := 0)
    (call := .cellWithOption (some { w := 100, h := 20 }) [65, 66] { align := 3 } none) rfl rfl rfl
  rw [show Units.toPoints demoEnv.cfg 30 = 30 by decide +kernel, show pageHeight (lookProgram.take 7) - Units.toPoints demoEnv.cfg 40 = 760 by decide +kernel] at h9
  exact ⟨pages, page, o, letter, p, q, _, _, _, h1, h2, h3, h7, h8, h9⟩

end Verif.Props
