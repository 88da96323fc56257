import Verif.Lemmas.Content.Alone
import Verif.Props.Balance
/- C34: joining adjacent text does not change what is drawn. -/
namespace Verif.Props
open Content Paint Drawing

/-- **C34** Whatever calls are made, in whatever order and on whatever pages: the glyphs painted on a page are the glyphs of
the characters written to it, in the order of the calls, each in the font, size and character spacing that were current at
its call. -/
theorem text_drawn_in_style (e : Env) (wd : Widths) (height ml mt : ℚ) (calls : List Call) (s : St)
    (h : steps e (start height ml mt) calls = some s) (n : Nat) (r : Reader)
    (hr : run wd {} (pageOps e (s.pages.getD n [])) = some r) :
    List.Forall₂ InStyle (glyphs r.marks) (drawn e n ⟨0, 0, 0, none⟩ 0 1 calls) := by
  have hst := steps_styles n calls _ s h (by simp [start])
  have hnil : styles e ((start height ml mt).pages.getD n []) = [] := by cases n <;> simp [start, styles]
  rw [hnil, List.nil_append] at hst
  have hfont : ∀ p ∈ s.pages, ∀ t, Item.text t ∈ p → 0 < t.font :=
    steps_items (fun t => 0 < t.font) (fun _ => True) (fun _ => True) (fun _ _ _ _ _ => Nat.succ_pos _)
      (fun c text t hc hx => by rw [← (extend_alike hx).1.font]; exact hc) (fun _ _ _ _ _ _ => trivial) calls _ s h
      (fun _ _ => trivial) trivial (by simp [start])
  obtain ⟨l, hl, hf⟩ := run_styles wd e InStyle (s.pages.getD n []) (by
    intro t ht g c
    have : 0 < t.font := by
      rw [List.getD_eq_getElem?_getD] at ht
      cases hx : s.pages[n]? with
      | none => simp [hx] at ht
      | some p => rw [hx] at ht; exact hfont p (List.mem_of_getElem? hx) t ht
    refine ⟨rfl, ?_, rfl⟩
    show some (t.font, t.fontSize) = some (t.font - 1 + 1, t.fontSize)
    rw [Nat.sub_add_cancel this]) {} r rfl hr
  rw [hst] at hf
  have : glyphs r.marks = l := by rw [hl]; rfl
  rw [this]; exact hf

/-- **C34** Every glyph is painted in the text colour that was current at its call, if a text colour had been set: for every
history without SetGrayFill (needed: `join_loses_colour_fails`). -/
theorem text_drawn_in_colour (e : Env) (wd : Widths) (height ml mt : ℚ) (calls : List Call) (s : St)
    (h : steps e (start height ml mt) calls = some s) (hg : ∀ c ∈ calls, ∀ v, c ≠ .setGrayFill v) (n : Nat) (r : Reader)
    (hr : run wd {} (pageOps e (s.pages.getD n [])) = some r) :
    List.Forall₂ InColour (glyphs r.marks) (drawn e n ⟨0, 0, 0, none⟩ 0 1 calls) := by
  have hst := steps_styles n calls _ s h (by simp [start])
  have hnil : styles e ((start height ml mt).pages.getD n []) = [] := by cases n <;> simp [start, styles]
  rw [hnil, List.nil_append] at hst
  have hcol : ∀ p ∈ s.pages, ∀ t, Item.text t ∈ p → t.inColour = t.colour.isSome := by
    refine steps_items (fun t => t.inColour = t.colour.isSome) (fun c => c.inColour = c.colour.isSome)
      (fun c => ∀ v, c ≠ .setGrayFill v) (fun _ _ _ _ hc => hc)
      (fun c text t hc hx => by rw [← (extend_alike hx).1.inColour, ← (extend_alike hx).1.colour]; exact hc) ?_ calls _ s h
      hg rfl (by simp [start])
    intro s s' c hc hs hq
    cases c with
    | setGrayFill v => exact absurd rfl (hc v)
    | setPage n => simp only [step, Option.some.injEq] at hs; subst hs; split <;> exact hq
    | text t => obtain ⟨x, y, hx⟩ := addText_cur hs; rw [hx]; exact hq
    | cell r t => obtain ⟨x, y, hx⟩ := addText_cur hs; rw [hx]; exact hq
    | cellWithOption r t o tr => obtain ⟨x, y, hx⟩ := addText_cur hs; rw [hx]; exact hq
    | setTextColour c => simp only [step, Option.some.injEq] at hs; subst hs; rfl
    | _ => simp only [step, Option.some.injEq] at hs; subst hs; exact hq
  obtain ⟨l, hl, hf⟩ := run_styles wd e InColour (s.pages.getD n []) (by
    intro t ht g c col hcl
    have : t.inColour = t.colour.isSome := by
      rw [List.getD_eq_getElem?_getD] at ht
      cases hx : s.pages[n]? with
      | none => simp [hx] at ht
      | some p => rw [hx] at ht; exact hcol p (List.mem_of_getElem? hx) t ht
    simp only [itemStyle] at hcl
    cases hc : t.colour with
    | none => simp [hc] at hcl
    | some c => simp [hc] at hcl; simp [textState, this, hc, hcl]) {} r rfl hr
  rw [hst] at hf
  have : glyphs r.marks = l := by rw [hl]; rfl
  rw [this]; exact hf

/-- **C34** Joining is invisible: compared with a library that makes a text object of every text call, every page paints the
same glyphs in the same order with the same complete graphics state (font, size, spacing, colour, transparency,
transformation, clipping), and leaves the same state behind for what is drawn later — whenever the texts joined agree in
transparency and colour mode. -/
theorem joining_invisible (e : Env) (wd : Widths) (height ml mt : ℚ) (calls : List Call) (s : St)
    (h : steps e (start height ml mt) calls = some s) (hj : JoinsAgree e (start height ml mt) calls) :
    ∃ u, stepsAlone e (start height ml mt) calls = some u ∧ u.pages.length = s.pages.length ∧
      ∀ (n : Nat) (r : Reader), run wd {} (pageOps e (s.pages.getD n [])) = some r →
        ∃ r', run wd {} (pageOps e (u.pages.getD n [])) = some r' ∧ glyphs r'.marks = glyphs r.marks ∧
          r'.g = r.g ∧ r'.stack = r.stack ∧ r'.level = r.level := by
  obtain ⟨u, hu, x, y, ps, rfl, hl, hv⟩ := near_steps (wd := wd) calls _ s _ (near_self wd e _) (by simp [start]) h hj
  refine ⟨_, hu, hl, fun n r hr => ?_⟩
  have := hv n
  unfold SameView at this
  rw [hr] at this
  cases hr' : run wd {} (pageOps e (ps.getD n [])) with
  | none => rw [hr'] at this; simp at this
  | some r' =>
    rw [hr'] at this
    simp only [Option.map_some, Option.some.injEq, view, Prod.mk.injEq] at this
    exact ⟨r', rfl, this.2.2.2.symm, this.1.symm, this.2.1.symm, this.2.2.1.symm⟩

/-- **C34** The condition of `joining_invisible` holds for every history in which SetGrayFill and transparency are
not used. -/
theorem plain_joins_agree (e : Env) (height ml mt : ℚ) (calls : List Call) (hp : ∀ c ∈ calls, Plain c) :
    JoinsAgree e (start height ml mt) calls := by
  suffices H : ∀ (calls : List Call) (s : St), (∀ c ∈ calls, Plain c) → (s.cur.ext = none ∧ s.cur.inColour = s.cur.colour.isSome) →
      (∀ p ∈ s.pages, ∀ t, Item.text t ∈ p → t.opt.ext = [] ∧ t.inColour = t.colour.isSome) → JoinsAgree e s calls from
    H calls _ hp ⟨rfl, rfl⟩ (by simp [start])
  intro calls
  induction calls with
  | nil => intro _ _ _ _; trivial
  | cons c calls ih =>
    intro s hp hc hpages
    have new : ∀ t text, asked e s c = some (t, text) → t.opt.ext = [] ∧ t.inColour = t.colour.isSome := by
      intro t text hq
      have hpl := hp c (by simp)
      cases c <;> simp [asked] at hq <;> obtain ⟨rfl, rfl⟩ := hq
      · exact ⟨rfl, hc.2⟩
      · exact ⟨rfl, hc.2⟩
      · next opt tr =>
        simp only [Plain] at hpl
        refine ⟨?_, hc.2⟩
        simp only [newText, hpl.1, List.nil_append, transOf, hc.1, hpl.2, Option.toList_none]
    refine ⟨fun t text t' hq hj => ?_, fun s' hs => ?_⟩
    · unfold joinTarget at hj
      split at hj
      · next c' hl =>
        split at hj
        · next hs =>
          obtain rfl := Option.some.inj hj
          have hmem : Item.text c' ∈ s.pages.getD s.page [] := List.mem_of_getLast? hl
          have : c'.opt.ext = [] ∧ c'.inColour = c'.colour.isSome := by
            rw [List.getD_eq_getElem?_getD] at hmem
            cases hx : s.pages[s.page]? with
            | none => simp [hx] at hmem
            | some p => rw [hx] at hmem; exact hpages p (List.mem_of_getElem? hx) c' hmem
          have hn := new t text hq
          exact ⟨this.1.trans hn.1.symm, by rw [this.2, hn.2, (isSame_fields hs).2.1]⟩
        · exact absurd hj (by simp)
      · exact absurd hj (by simp)
    · refine ih s' (fun x hx => hp x (by simp [hx])) ?_ ?_
      · have hpl := hp c (by simp)
        cases c with
        | setGrayFill v => exact hpl.elim
        | setPage n => simp only [step, Option.some.injEq] at hs; subst hs; split <;> exact hc
        | text t => obtain ⟨x, y, hx⟩ := addText_cur hs; rw [hx]; exact hc
        | cell r t => obtain ⟨x, y, hx⟩ := addText_cur hs; rw [hx]; exact hc
        | cellWithOption r t o tr => obtain ⟨x, y, hx⟩ := addText_cur hs; rw [hx]; exact hc
        | setTextColour c => simp only [step, Option.some.injEq] at hs; subst hs; exact ⟨hc.1, rfl⟩
        | setTransparency n => simp only [step, Option.some.injEq] at hs; subst hs; exact ⟨hpl, hc.2⟩
        | _ => simp only [step, Option.some.injEq] at hs; subst hs; exact hc
      · have cur_page : ∀ t, Item.text t ∈ s.pages.getD s.page [] → t.opt.ext = [] ∧ t.inColour = t.colour.isSome := by
          intro t ht
          rw [List.getD_eq_getElem?_getD] at ht
          cases hx : s.pages[s.page]? with
          | none => simp [hx] at ht
          | some p => rw [hx] at ht; exact hpages p (List.mem_of_getElem? hx) t ht
        cases step_did hs with
        | addPage x hpg hc =>
          rw [hpg]; intro p hpm t ht
          rw [List.mem_append, List.mem_singleton] at hpm
          rcases hpm with hpm | rfl
          · exact hpages p hpm t ht
          · simp at ht
        | setPage k hpg hc => rw [hpg]; exact hpages
        | keep _ _ _ _ hpg _ => rw [hpg]; exact hpages
        | item _ _ _ _ i hi hpg _ =>
          rw [hpg]; intro p hpm t ht
          rcases List.mem_or_eq_of_mem_set hpm with hpm | rfl
          · exact hpages p hpm t ht
          · rw [List.mem_append, List.mem_singleton] at ht
            rcases ht with ht | ht
            · exact cur_page t ht
            · exact absurd ht.symm (hi t)
        | text _ _ _ t cell rect opt ht hqq hadd =>
          unfold St.addText at hadd
          split at hadd
          · exact absurd hadd (by simp)
          · next items x y hap =>
            have hpg : s'.pages = s.pages.set s.page items := by rw [← Option.some.inj hadd]
            rw [hpg]; intro p hpm t1 ht1
            rcases List.mem_or_eq_of_mem_set hpm with hpm | rfl
            · exact hpages p hpm t1 ht1
            · obtain ⟨pre, c', t2, hc', hx, rfl, -, -⟩ := append_cases hap
              obtain ⟨al, -⟩ := extend_alike hx
              rw [List.mem_append, List.mem_singleton] at ht1
              rcases hc' with ⟨hpre, -⟩ | ⟨hpre, rfl, -⟩
              · rcases ht1 with ht1 | ht1
                · exact cur_page t1 (by rw [hpre]; simp [ht1])
                · obtain rfl := Item.text.inj ht1
                  have := cur_page c' (by rw [hpre]; simp)
                  rw [← al.ext, ← al.inColour, ← al.colour]; exact this
              · rcases ht1 with ht1 | ht1
                · exact cur_page t1 (by rw [hpre]; exact ht1)
                · obtain rfl := Item.text.inj ht1
                  rw [← al.ext, ← al.inColour, ← al.colour]; exact new _ _ hqq

/-! ### Where joining is visible -/

/-- The last glyph painted on the first page, with its state. -/
def lastGlyph (o : Option St) : Option (Nat × GState) := o.bind fun s =>
  (run (fun _ _ => 0) {} (pageOps demoEnv (s.pages.getD 0 []))).bind fun r => (glyphs r.marks).getLast?

/-- **C34** (counterexample)  SetTextColor(red), SetGrayFill(½), Text("A"), SetTextColor(red), Text("B"): the second text is
joined to the first and painted gray, although red was chosen again before it. -/
theorem join_loses_colour_fails :
    let calls : List Call := [.setFont 0 0 10, .setTextColour (.rgb 255 0 0), .setGrayFill (1 / 2), .text [65],
      .setTextColour (.rgb 255 0 0), .text [66]]
    (lastGlyph (steps demoEnv (start 842 10 10) calls)).map (fun p => (p.1, p.2.fill)) = some (2, .gray (1 / 2)) ∧
    (lastGlyph (stepsAlone demoEnv (start 842 10 10) calls)).map (fun p => (p.1, p.2.fill)) = some (2, .rgb 1 0 0) := by
  constructor <;> decide +kernel

/-- **C34** (counterexample)  A transparent cell without rectangle followed by an opaque one on the same line: the second is
joined to the first and painted transparent. -/
theorem join_loses_transparency_fails :
    let calls : List Call := [.setFont 0 0 10, .cellWithOption none [65] { float := 2 } (some (some 7)), .cell none [66]]
    (lastGlyph (steps demoEnv (start 842 10 10) calls)).map (fun p => (p.1, p.2.ext)) = some (2, [7]) ∧
    (lastGlyph (stepsAlone demoEnv (start 842 10 10) calls)).map (fun p => (p.1, p.2.ext)) = some (2, []) := by
  constructor <;> decide +kernel

/-- **C34** (counterexample)  Text("A") and then Cell with a rectangle 100 wide on the same line: the cell is joined to the
text and its rectangle is ignored, so the cursor ends 13 to the right of where it began instead of 106. -/
theorem join_ignores_rectangle_fails :
    let calls : List Call := [.setFont 0 0 10, .text [65], .cell (some { w := 100, h := 20 }) [66]]
    (steps demoEnv (start 842 10 10) calls).map (fun s => s.cur.x - 10) = some 13 ∧
    (stepsAlone demoEnv (start 842 10 10) calls).map (fun s => s.cur.x - 10) = some 106 := by
  constructor <;> decide +kernel

/-- Non-trivial histories meet the hypotheses: two texts joined across a change of colour and back, and a page change. -/
def demoJoin : List Call :=
  [.setFont 0 0 10, .setTextColour (.rgb 255 0 0), .text [65], .setTextColour (.rgb 0 0 0), .setTextColour (.rgb 255 0 0),
   .text [66, 67, 65], .addPage 800, .cell none [66], .setPage 0, .setFontSize 12, .text [65]]

example : (∀ c ∈ demoJoin, Plain c) ∧ (∀ c ∈ demoJoin, ∀ v, c ≠ .setGrayFill v) ∧
    (steps demoEnv (start 842 10 10) demoJoin).map (fun s => s.pages.map List.length) = some [2, 1] ∧
    (drawn demoEnv 0 ⟨0, 0, 0, none⟩ 0 1 demoJoin).map (fun p => (p.1, p.2.size)) =
      [(1, 10), (2, 10), (1, 10), (1, 12)] := by
  refine ⟨by simp [demoJoin, Plain], by simp [demoJoin], by decide +kernel, by decide +kernel⟩

end Verif.Props
