import Verif.Lemmas.Program.Inked
import Verif.Props.Join
import Verif.Props.Measure
import Verif.Props.ProgramFigures
import Verif.Props.Typeset
/- C70: how the text of a program looks in the file. -/
set_option maxRecDepth 10000
namespace Verif.Content

theorem measured_start {e : Env} {t : TextItem} (h : Props.Measured e t) : startOf e t = (calX t, calY e t) := by
  obtain ⟨q, hq, q1, q2, q3⟩ := h.ok
  unfold startOf
  cases hr : t.rectangle with
  | some r => rfl
  | none =>
    rw [hr] at hq
    unfold createContent at hq
    split at hq
    · cases hq
    · simp only [Option.some.injEq] at hq
      subst hq
      simp only at q1 q2 q3
      have hx : calX t = t.x := by
        unfold calX
        rw [q1, q3]
        split
        · split
          · ring
          · split
            · ring
            · rfl
        · rfl
      rw [hx]
      simp only [calY, q2]

theorem steps_fontPos {e : Env} {calls : List Call} {height ml mt : ℚ} {s : St} (h : steps e (start height ml mt) calls = some s) :
    ∀ p ∈ s.pages, ∀ t, Item.text t ∈ p → 0 < t.font :=
  steps_items (fun t => 0 < t.font) (fun _ => True) (fun _ => True) (fun _ _ _ _ _ => Nat.succ_pos _)
    (fun c text t hc hx => by rw [← (extend_alike hx).1.font]; exact hc) (fun _ _ _ _ _ _ => trivial) calls _ s h
    (fun _ _ => trivial) trivial (by simp [start])

theorem steps_mode {e : Env} {calls : List Call} {height ml mt : ℚ} {s : St} (h : steps e (start height ml mt) calls = some s)
    (hg : ∀ c ∈ calls, ∀ v, c ≠ .setGrayFill v) : ∀ p ∈ s.pages, ∀ t, Item.text t ∈ p → t.inColour = t.colour.isSome := by
  refine steps_items (fun t => t.inColour = t.colour.isSome) (fun c => c.inColour = c.colour.isSome)
    (fun c => ∀ v, c ≠ .setGrayFill v) (fun _ _ _ _ hc => hc)
    (fun c text t hc hx => by rw [← (extend_alike hx).1.inColour, ← (extend_alike hx).1.colour]; exact hc) ?_ calls _ s h
    hg rfl (by simp [start])
  intro s s' c hc hs hq
  cases c with
  | setGrayFill v => exact absurd rfl (hc v)
  | setPage n => simp only [step, Option.some.injEq] at hs; subst hs; split <;> exact hq
  | text t => obtain ⟨x, y, hx⟩ := addText_cur hs; rw [hx]; exact hq
  | cell r t => obtain ⟨x, y, hx⟩ := addText_cur hs; rw [hx]; exact hq
  | cellWithOption r t o tr => obtain ⟨x, y, hx⟩ := addText_cur hs; rw [hx]; exact hq
  | setTextColour c => simp only [step, Option.some.injEq] at hs; subst hs; rfl
  | _ => simp only [step, Option.some.injEq] at hs; subst hs; exact hq

end Verif.Content

namespace Verif.Props
open Doc Objects ObjectValue PdfObject FileReader Viewer Typeset

theorem forall₂_join {α β γ δ : Type} {R : γ → δ → Prop} {S : α → β → Prop} {f : α → γ} {g : β → δ} : ∀ {l : List α} {m : List β},
    List.Forall₂ R (l.map f) (m.map g) → List.Forall₂ S l m → List.Forall₂ (fun a b => R (f a) (g b) ∧ S a b) l m
  | [], [], _, _ => .nil
  | a :: l, b :: m, h, h' => by
    cases h with
    | cons h1 h2 => cases h' with
      | cons h3 h4 => exact .cons ⟨h1, h3⟩ (forall₂_join h2 h4)

theorem inked_wishes (k : Nat) : ∀ (prog : List Typeset.Call) (n : Nat) (x : Setting) (col : Option Paint.Colour),
    (inked k n x col prog).map (·.wish) = wishes k n x.reg x.face prog
  | [], _, _, _ => rfl
  | c :: prog, n, x, col => by
    have ih := inked_wishes k prog (if startsPage c then n + 1 else n) (x.after c) (inkAfter col c)
    simp only [inked, wishes, List.map_append, ih, Setting.after]
    congr 1
    split
    · cases x.face <;> simp
    · rfl

section
variable {e : Objects.Env} {base : Content.Env} {prot : Bool} {ml mt : ℚ} {prog : List Typeset.Call} {s : Typeset.St}
  {calls : List Program.Call} {d : Doc} {c : Decoder}

/-- The characters on page `k` meet the wishes. -/
theorem Printed.meets (h : Printed e base prot ml mt prog s calls d c) (k : Nat) :
    List.Forall₂ (fun w p => Meets s w ⟨0, p.1, p.2⟩) (wishes k 0 [] none prog) (Content.runes (s.prog.content.pages.getD k [])) := by
  have hrunes := Program.steps_runes k calls 0 _ s.prog h.steps (by rfl)
  rw [show Content.runes ((Program.start prot ml mt).content.pages.getD k []) = [] by
    cases k <;> simp [Program.start, Content.start, Content.runes], List.nil_append, show (Program.start prot ml mt).content.page = 0 from rfl] at hrunes
  have hall := wishes_asked k prog 0 0 [] none _ s calls (inv_start base prot ml mt) h.ok (reg_start prot ml mt) (cur_start prot ml mt) h.run
    h.noUL (s.env base) (Covers.self base h.inv.res.reach)
  rw [show (Typeset.start prot ml mt).prog = Program.start prot ml mt from rfl] at hall
  rw [hrunes, List.forall₂_map_right_iff]
  exact hall

theorem Printed.fine (h : Printed e base prot ml mt prog s calls d c) (hg : ∀ x ∈ prog, NoGrey x) (k : Nat) (t : Content.TextItem)
    (ht : Content.Item.text t ∈ s.prog.content.pages.getD k []) : Program.Fine (s.env base) t := by
  have hsteps := Program.steps_content calls _ s.prog h.steps
  have hp : s.prog.content.pages.getD k [] ∈ s.prog.content.pages := by
    rw [List.getD_eq_getElem?_getD] at ht ⊢
    cases hx : s.prog.content.pages[k]? with
    | none => simp [hx] at ht
    | some p => exact List.mem_of_getElem? hx
  refine ⟨Content.steps_fontPos hsteps _ hp t ht, fun r hr => ?_, ?_, ?_⟩
  · have hm := h.meets k
    have hmem : (t.font, r) ∈ Content.runes (s.prog.content.pages.getD k []) := by
      simp only [Content.runes, List.mem_flatMap]
      exact ⟨_, ht, by simp only [Content.runes1, List.mem_map]; exact ⟨r, hr, rfl⟩⟩
    obtain ⟨i, hi, hir⟩ := List.getElem_of_mem hmem
    have hw := (List.forall₂_iff_get.1 hm).2 i (by rw [(List.forall₂_iff_get.1 hm).1]; exact hi) hi
    rw [List.get_eq_getElem, List.get_eq_getElem, hir] at hw
    obtain ⟨x, x1, x2, lo, l1, -, l3, -⟩ := hw
    have hfont : (s.env base).fonts t.font = lo.font := by
      rw [show t.font = x.count + 1 from x2]; exact fontNo_mem _ (counts_nodup h.inv.res.reach) x1 l1
    rw [hfont]
    exact l3
  · exact Content.measured_start (steps_measured _ _ _ hsteps (by simp [Program.start, Content.start]) _ hp t ht).1
  · refine Content.steps_mode hsteps ?_ _ hp t ht
    rintro x hx v rfl
    obtain ⟨y, y1, d', en, n, o, y2, y3⟩ := draw_mem calls _ _ hx
    cases y with
    | plain z =>
      obtain rfl : z = .setGrayFill v := by simpa [Program.contentCall] using y3
      exact hg _ (other_mem prog _ s calls h.run _ y1)
    | object op => simp [Program.contentCall] at y3
    | setColourSpace n => simp [Program.contentCall] at y3
    | image i j => simp [Program.contentCall] at y3
    | imageOpt i j t m => simp [Program.contentCall] at y3
    | _ => simp [Program.contentCall] at y3

/-- The letters a viewer reads on a page, and the characters drawn there. -/
theorem Printed.spelled (h : Printed e base prot ml mt prog s calls d c) (hg : ∀ x ∈ prog, NoGrey x) :
    ∃ pages, view c (file e d) = some pages ∧ pages.length = prog.countP startsPage ∧
      ∀ (k : Nat) page o, pages[k]? = some (page, o) →
        List.Forall₂ (fun x y => ∃ z, Program.NearLetter x z ∧ Program.Shows (s.env base) z y) (letters {} [] .away o)
          (Content.signsOf (s.env base) (s.prog.content.pages.getD (k + 1) [])) := by
  obtain ⟨ps, h1, h2, h3, h4⟩ := program_view h.output
  refine ⟨ps, h1, by rw [h2, count_pages prog _ s calls h.run], fun k page o hk => ?_⟩
  obtain ⟨⟨-, q1⟩, -⟩ := h4 k page o hk
  have near := Program.near_letters q1 (l := {}) (l' := {}) (st := []) (st' := []) (p := .away) (p' := .away)
    ⟨trivial, by simp [ContentReader.Near], by simp [ContentReader.NearColour, ContentReader.Near]⟩ .nil trivial
  have page := Program.letters_page (s.env base) _ (fun t ht => h.fine hg (k + 1) t ht) {} [] .away
  revert near page
  generalize letters {} [] .away o = A
  generalize letters {} [] .away (Content.pageOps (s.env base) (s.prog.content.pages.getD (k + 1) [])) = B
  generalize Content.signsOf (s.env base) (s.prog.content.pages.getD (k + 1) []) = C
  intro near page
  induction near generalizing C with
  | nil => cases page; exact .nil
  | cons a1 _ ih => cases page with
    | cons b1 b2 => exact .cons ⟨_, a1, b1⟩ (ih _ b2)

/-- **C70** Text looks in the file as the caller asked.  On every page a viewer meets exactly one code for each character written on
that page, in order, and each in the style that was chosen when it was written: drawn as the glyph of the caller's font (C64), in the
size of the last SetFont or SetFontSize, with the character spacing of the last SetCharSpacing, and in the colour of the last
SetTextColor or SetTextColorCMYK if there was one. -/
theorem text_look_in_file (h : Printed e base prot ml mt prog s calls d c) (hg : ∀ x ∈ prog, NoGrey x) :
    ∃ pages, view c (file e d) = some pages ∧ pages.length = prog.countP startsPage ∧
      ∀ (k : Nat) page o, pages[k]? = some (page, o) →
        List.Forall₂ (fun x i => LooksAs base.cfg x.look i ∧ ∃ n v g, x.look.font = some (n, v) ∧ Stands i.wish.face i.wish.char g ∧
          DrawsAs c (file e d) page (n, x.code) i.wish.face.file g) (letters {} [] .away o) (inked (k + 1) 0 {} none prog) := by
  obtain ⟨ps, h1, h2, h3⟩ := h.spelled hg
  obtain ⟨ps', h1', -, h3'⟩ := text_in_callers_fonts h
  obtain rfl : ps = ps' := by rw [h1] at h1'; simpa using h1'
  refine ⟨ps, h1, h2, fun k page o hk => ?_⟩
  have shows := h3 k page o hk
  have draws := h3' k page o hk
  obtain ⟨new, n1, n2⟩ := inked_signs (k + 1) prog {} none _ s calls (inv_start base prot ml mt) h.ok (reg_start prot ml mt) (cur_start prot ml mt)
    (size_start base.cfg prot ml mt) rfl rfl h.run h.noUL (s.env base) (Covers.self base h.inv.res.reach)
  rw [show Content.signsOf (s.env base) ((Typeset.start prot ml mt).prog.content.pages.getD (k + 1) []) = [] by
    simp [Typeset.start, Program.start, Content.start, Content.signsOf], List.nil_append] at n1
  rw [n1] at shows
  have all : List.Forall₂ (fun x i => LooksAs base.cfg x.look i) (letters {} [] .away o) (inked (k + 1) 0 {} none prog) := by
    revert shows n2
    generalize letters {} [] .away o = A
    rw [show (Typeset.start prot ml mt).prog.content.page = 0 from rfl]
    generalize inked (k + 1) 0 {} none prog = B
    intro shows n2
    clear n1 draws
    induction shows generalizing B with
    | nil => cases n2; exact .nil
    | cons a1 _ ih => cases n2 with
      | cons b1 b2 =>
        refine .cons ?_ (ih _ b2)
        obtain ⟨z, z1, z2⟩ := a1
        obtain ⟨c1, c2, c3⟩ := b1
        obtain ⟨f1, f2, f3⟩ := z1.look
        refine ⟨?_, ?_, ?_⟩
        · rw [z2.font] at f1
          split at f1
          · simp_all
          · next u v hu hv =>
            simp only [Option.some.injEq] at hv
            subst hv
            exact ⟨_, _, hu, by rw [← c1]; exact f1.2⟩
          · exact f1.elim
        · rw [← c2, ← z2.spacing]; exact f2
        · intro col hcol
          rw [← z2.colour col (by rw [c3, hcol])]; exact f3
  have hfont : ∀ x ∈ letters {} [] .away o, ∃ n v, x.look.font = some (n, v) := by
    intro x hx
    obtain ⟨i, hi, rfl⟩ := List.getElem_of_mem hx
    have := (List.forall₂_iff_get.1 all).2 i hi (by rw [← (List.forall₂_iff_get.1 all).1]; exact hi)
    obtain ⟨n, v, hn, -⟩ := this.1
    exact ⟨n, v, hn⟩
  have hshown : shown none [] o = (letters {} [] .away o).map fun x => ((x.look.font.getD (0, 0)).1, x.code) := by
    rw [show shown none [] o = _ from (Program.letters_shown o {} [] .away).symm]
    clear all draws shows
    revert hfont
    generalize letters {} [] .away o = A
    intro hfont
    induction A with
    | nil => rfl
    | cons a A ih =>
      obtain ⟨n, v, hn⟩ := hfont a (by simp)
      rw [List.filterMap_cons, ih (fun x hx => hfont x (by simp [hx]))]
      simp [Program.numbered, hn]
  have hw : wishes (k + 1) 0 [] none prog = (inked (k + 1) 0 {} none prog).map (·.wish) := (inked_wishes (k + 1) prog 0 {} none).symm
  rw [hshown, hw] at draws
  refine (forall₂_join draws all).imp fun x i hxi => ⟨hxi.2, ?_⟩
  obtain ⟨⟨g, g1, g2⟩, ⟨n, v, hn, -⟩, -⟩ := hxi
  rw [hn] at g2
  exact ⟨n, v, g, hn, g1, g2⟩

end
end Verif.Props
