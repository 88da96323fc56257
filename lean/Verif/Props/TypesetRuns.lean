import Verif.Lemmas.Program.Runs
import Verif.Props.Typeset
import Verif.Props.TypesetMeasure
/- C67: kerning in the file. -/
set_option maxRecDepth 10000
namespace Verif.Typeset
open TTF (glyphOf)

theorem loop_kerned {l : Loaded} (hf : GoodFace l.face) (hg : Good l) (hk : l.face.useKerning = true → GoodKern l.face.file) :
    ∀ (t out : List Nat), List.Forall₂ (Instead l) t out → ∀ (i : Nat) (left : Nat × Nat),
      Kerned l.face (if i = 0 then none else some left) t ((TextRun.tjLoop l.font.run none left (TextRun.withIndex i out)).map Content.tjItem) := by
  intro t out h
  induction h with
  | nil => intro i left; exact .nil
  | @cons r r' t out hr _ ih =>
    intro i left
    obtain ⟨g, hm, hrr⟩ := id hr
    simp only [TextRun.withIndex, TextRun.tjLoop, show l.font.run.map = l.map from rfl, hm]
    have := ih (i + TextRun.utf8Len r') (r', g)
    rw [if_neg (by have := utf8Len_pos r'; omega)] at this
    have := Kerned.cons (hr.drawn hf hg) (stands hf hg.load hg.history hrr hm) (pairKern_of hf hg hk i r' g left) this
    rw [show ∀ l1 l2 l3 l4, List.map Content.tjItem (l1 ++ l2 ++ l3 ++ l4) = l1.map Content.tjItem ++ (l2 ++ l3 ++ l4).map Content.tjItem by simp]
    refine cast ?_ this
    congr 2
    split <;> simp_all [Content.tjItem]

end Verif.Typeset

namespace Verif.Props
open Doc Objects ObjectValue PdfObject FileReader Viewer Typeset

theorem notJust {opt : Content.CellOption} (h : opt.align / 64 % 2 = 0) : Content.has opt.align Content.justify = false := by
  unfold Content.has Content.justify
  by_contra hc
  have h64 : opt.align &&& 64 = 64 := by simpa using hc
  have hb : (opt.align &&& 64).testBit 6 = true := by rw [h64]; decide
  rw [Nat.testBit_and, Nat.testBit_eq_decide_div_mod_eq] at hb
  simp [h] at hb

section
variable {e : Objects.Env} {base : Content.Env} {prot : Bool} {ml mt : ℚ} {prog : List Typeset.Call} {s : Typeset.St}
  {calls : List Program.Call} {d : Doc} {c : Decoder}

theorem calls_plain : ∀ (prog : List Typeset.Call) (s s' : Typeset.St) (calls : List Program.Call), Typeset.steps base s prog = some (s', calls) →
    (∀ x ∈ prog, NotJustified x) → ∀ k ∈ calls, Program.PlainCell k
  | [], s, s', calls, h, _, k, hk => by
    simp only [Typeset.steps, Option.some.injEq, Prod.mk.injEq] at h
    obtain ⟨rfl, rfl⟩ := h
    simp at hk
  | x :: prog, s, s', calls, h, hn, k, hk => by
    obtain ⟨s1, pk, calls', h1, h2, rfl⟩ := Typeset.steps_cons h
    rcases List.mem_append.1 hk with hk | hk
    · have hx := hn x (by simp)
      rcases step_inv h1 with ⟨rfl, -⟩ | ⟨pc, rfl, -, h3⟩
      · simp at hk
      · simp only [Option.toList, List.mem_singleton] at hk
        subst hk
        cases x with
        | addFont f st face =>
          simp only [St.prepare] at h3
          split at h3 <;> simp only [Option.some.injEq, Prod.mk.injEq, reduceCtorEq] at h3
          all_goals
            obtain ⟨-, rfl⟩ := h3
            trivial
        | other c =>
          simp only [St.prepare] at h3
          split at h3
          · next ho =>
            simp only [Option.some.injEq, Prod.mk.injEq] at h3
            obtain ⟨-, rfl⟩ := h3
            cases c <;> first | trivial | simp [isOther] at ho
          · cases h3
        | measure t =>
          simp only [St.prepare, Option.map_eq_some_iff] at h3
          obtain ⟨_, _, he⟩ := h3
          simp at he
        | cellWithOption r t opt tr =>
          simp only [St.prepare, Option.map_eq_some_iff] at h3
          obtain ⟨_, _, he⟩ := h3
          simp only [Prod.mk.injEq, Option.some.injEq] at he
          obtain ⟨-, rfl⟩ := he
          cases r with
          | none => trivial
          | some _ => exact notJust hx
        | _ =>
          simp only [St.prepare, Option.map_eq_some_iff] at h3
          obtain ⟨_, _, he⟩ := h3
          simp only [Prod.mk.injEq, Option.some.injEq] at he
          obtain ⟨-, rfl⟩ := he
          trivial
    · exact calls_plain prog s1 s' calls' h2 (fun y hy => hn y (by simp [hy])) k hk

/-- The texts of the items of a page, and the arrays shown for them. -/
theorem split_items {R : Wish → Nat × Nat → Prop} {P : Option Nat × List TextShow.Item → List Wish → Prop} (ce : Content.Env) :
    ∀ (items : List Content.Item) (ws : List Wish), (∀ t, Content.Item.text t ∈ items → ∀ g, List.Forall₂ R g (t.text.map fun r => (t.font, r)) →
      P (some t.font, Content.tjOf ce t) g) → List.Forall₂ R ws (Content.runes items) →
    ∃ groups, groups.flatten = ws ∧ List.Forall₂ P (items.flatMap (Program.run1 ce)) groups
  | [], ws, _, h => by
    simp only [Content.runes, List.flatMap_nil, List.forall₂_nil_right_iff] at h
    subst h
    exact ⟨[], rfl, .nil⟩
  | i :: items, ws, hP, h => by
    simp only [Content.runes, List.flatMap_cons] at h
    obtain ⟨w1, w2, h1, h2, rfl⟩ : ∃ w1 w2, List.Forall₂ R w1 (Content.runes1 i) ∧ List.Forall₂ R w2 (Content.runes items) ∧ ws = w1 ++ w2 := by
      refine ⟨ws.take (Content.runes1 i).length, ws.drop (Content.runes1 i).length, ?_, ?_, (List.take_append_drop _ _).symm⟩
      · have := List.forall₂_take (Content.runes1 i).length h
        rwa [List.take_left] at this
      · have := List.forall₂_drop (Content.runes1 i).length h
        rwa [List.drop_left] at this
    obtain ⟨gs, g1, g2⟩ := split_items ce items w2 (fun t ht => hP t (by simp [ht])) h2
    cases i with
    | text t =>
      refine ⟨w1 :: gs, by simp [g1], ?_⟩
      simp only [List.flatMap_cons, Program.run1, List.cons_append, List.nil_append]
      exact .cons (hP t (by simp) w1 h1) g2
    | _ =>
      simp only [Content.runes1, List.forall₂_nil_right_iff] at h1
      subst h1
      exact ⟨gs, by simpa using g1, by simpa [Program.run1] using g2⟩

/-- **C67** Kerning in the file.  The text of a page is shown in arrays of codes and numbers (`TJ`), each for consecutive characters
the caller wrote in one font; in an array there is a number before a character exactly if the caller asked for kerning and the
kerning table of the font file (with the override) has a value for the pair of glyphs that is not 0 in thousandths of an em, and the
number is that value, negated. -/
theorem kerning_in_file (h : Printed e base prot ml mt prog s calls d c) (hj : ∀ x ∈ prog, NotJustified x)
    (hk : ∀ f st face, Typeset.Call.addFont f st face ∈ prog → accepted face = true → face.useKerning = true → GoodKern face.file) :
    ∃ pages, view c (file e d) = some pages ∧ pages.length = prog.countP startsPage ∧
      ∀ (k : Nat) page o, pages[k]? = some (page, o) → ∃ groups, groups.flatten = wishes (k + 1) 0 [] none prog ∧
        List.Forall₂ (fun r ws => ∃ face, (∀ w ∈ ws, w.face = face) ∧ Kerned face none (ws.map (·.char)) r.2) (runs none [] o) groups := by
  have ho := h.output
  obtain ⟨ps, h1, h2, h3, h4⟩ := program_view ho
  refine ⟨ps, h1, by rw [h2, count_pages prog _ s calls h.run], fun k page o hk' => ?_⟩
  obtain ⟨⟨-, q1⟩, -⟩ := h4 k page o hk'
  have hrunes := Program.steps_runes (k + 1) calls 0 _ s.prog h.steps (by rfl)
  rw [show Content.runes ((Program.start prot ml mt).content.pages.getD (k + 1) []) = [] by
    simp [Program.start, Content.start, Content.runes], List.nil_append, show (Program.start prot ml mt).content.page = 0 from rfl] at hrunes
  have hall := wishes_asked (k + 1) prog 0 0 [] none _ s calls (inv_start base prot ml mt) h.ok (reg_start prot ml mt) (cur_start prot ml mt) h.run
    h.noUL (s.env base) (Covers.self base h.inv.res.reach)
  rw [show (Typeset.start prot ml mt).prog = Program.start prot ml mt from rfl] at hall
  have hall' : List.Forall₂ (fun w p => Meets s w ⟨0, p.1, p.2⟩) (wishes (k + 1) 0 [] none prog) (Content.runes (s.prog.content.pages.getD (k + 1) [])) := by
    rw [hrunes, List.forall₂_map_right_iff]
    exact hall
  have hjust := Program.steps_just calls _ s.prog h.steps (calls_plain prog _ s calls h.run hj) (by
    simp [Program.start, Content.start])
  rw [Program.runs_near q1, Program.runs_page]
  refine split_items _ _ _ ?_ hall'
  intro t ht g hg
  have hnone : Content.justOf t = none := by
    rw [List.getD_eq_getElem?_getD] at ht
    cases hx : s.prog.content.pages[k + 1]? with
    | none => simp [hx] at ht
    | some p => rw [hx] at ht; exact (hjust p (List.mem_of_getElem? hx) t ht).none
  simp only [Content.tjOf, hnone]
  rw [List.forall₂_map_right_iff] at hg
  cases htext : t.text with
  | nil =>
    rw [htext, List.forall₂_nil_right_iff] at hg
    subst hg
    exact ⟨{ file := [] }, by simp, by simpa [TextRun.withIndex, TextRun.tjLoop] using Kerned.nil⟩
  | cons r0 rest =>
    rw [← htext]
    obtain ⟨x, hx, hxn⟩ : ∃ x ∈ s.prog.doc.relFonts, t.font = x.count + 1 := by
      rw [htext] at hg
      cases hg with
      | cons a _ => obtain ⟨x, a1, a2, -⟩ := a; exact ⟨x, a1, a2⟩
    obtain ⟨lo, l1, gf, good⟩ := h.rel hx
    have same : ∀ w r, Meets s w ⟨0, t.font, r⟩ → w.face = lo.face ∧ Instead lo w.char r := by
      rintro w r ⟨y, y1, y2, l', m1, m2, m3, m4⟩
      have hxy : y = x := by
        have hnd := counts_nodup h.inv.res.reach
        simp only at y2
        exact List.inj_on_of_nodup_map hnd y1 hx (by omega)
      subst hxy
      rw [l1, Option.some.injEq] at m1
      subst m1
      obtain ⟨g', hg'⟩ := Option.isSome_iff_exists.1 m3
      exact ⟨m2.symm, g', hg', m4⟩
    have hfont : (s.env base).fonts t.font = lo.font := by
      rw [hxn]; exact fontNo_mem _ (counts_nodup h.inv.res.reach) hx l1
    refine ⟨lo.face, ?_, ?_⟩
    · intro w hw
      obtain ⟨r, hr⟩ : ∃ r, Meets s w ⟨0, t.font, r⟩ := by
        obtain ⟨i, hi, rfl⟩ := List.getElem_of_mem hw
        have := (List.forall₂_iff_get.1 hg).2 i hi (by rw [← (List.forall₂_iff_get.1 hg).1]; exact hi)
        exact ⟨_, this⟩
      exact (same w r hr).1
    · rw [hfont]
      have hkern : lo.face.useKerning = true → GoodKern lo.face.file := by
        obtain ⟨st, ci, u, y1, -⟩ := (reachable_res h.inv.res.reach).fontObj x hx
        have hr := reg_final prog [] _ s calls (inv_start base prot ml mt) h.ok (reg_start prot ml mt) h.run
        obtain ⟨face, f1, f2, f3⟩ := font_given hr y1
        rw [l1, Option.map_some, Option.some.injEq] at f3
        rw [f3]
        exact hk _ _ _ f1 f2
      refine loop_kerned gf good hkern _ _ ?_ 0 (0, 0)
      rw [List.forall₂_map_left_iff]
      exact hg.imp fun w r hm => (same w r hm).2

/-- **C67** The pen of a viewer moves, while it shows such an array, by what the text measures (`measured_width`). -/
theorem pen_moves_by_measure {f : Face} {left : Option (Nat × Nat)} {t : List Nat} {items : List TextShow.Item} (h : Kerned f left t items)
    {n : Int} (hn : PenMoves f.file items n) : Measures f 0 left t n := by
  induction h generalizing n with
  | nil => cases hn; exact .nil
  | @cons left r r' g k rest items a1 a2 a3 _ ih =>
    have one : ∀ m, PenMoves f.file (.code g :: items) m → Measures f 0 left (r :: rest) (m + k) := by
      intro m hm
      cases hm with
      | @code _ w n' _ hw hr =>
        have := Measures.cons (space := 0) a1 a2 hw a3 (ih hr)
        refine cast ?_ this
        congr 1
        ring
    by_cases hk : k = 0
    · rw [if_pos hk, List.nil_append] at hn
      have := one n hn
      rwa [hk, add_zero] at this
    · rw [if_neg hk, List.cons_append, List.nil_append] at hn
      cases hn with
      | @adjust _ n' _ hr =>
        have := one n' hr
        refine cast ?_ this
        congr 1
        ring

end
end Verif.Props
