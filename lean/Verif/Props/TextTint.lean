import Verif.Lemmas.Program.TintSteps
import Verif.Props.TextLook
/- C85: the transparency of the text of a program in the file. -/
set_option maxRecDepth 10000
namespace Verif.Props
open Doc Objects ObjectValue PdfObject FileReader Viewer Typeset

section
variable {e : Objects.Env} {base : Content.Env} {prot : Bool} {ml mt : ℚ} {prog : List Typeset.Call} {s : Typeset.St}
  {calls : List Program.Call} {d : Doc} {c : Decoder}

theorem Printed.glyphs (h : Printed e base prot ml mt prog s calls d c) (k : Nat) (t : Content.TextItem)
    (ht : Content.Item.text t ∈ s.prog.content.pages.getD k []) : ∀ r ∈ t.text, (((s.env base).fonts t.font).run.map.val r).isSome := by
  intro r hr
  have hm := h.meets k
  have hmem : (t.font, r) ∈ Content.runes (s.prog.content.pages.getD k []) := by
    simp only [Content.runes, List.mem_flatMap]
    exact ⟨_, ht, by simp only [Content.runes1, List.mem_map]; exact ⟨r, hr, rfl⟩⟩
  obtain ⟨i, hi, hir⟩ := List.getElem_of_mem hmem
  have hw := (List.forall₂_iff_get.1 hm).2 i (by rw [(List.forall₂_iff_get.1 hm).1]; exact hi) hi
  rw [List.get_eq_getElem, List.get_eq_getElem, hir] at hw
  obtain ⟨x, x1, x2, lo, l1, -, l3, -⟩ := hw
  have hfont : (s.env base).fonts t.font = lo.font := by
    rw [show t.font = x.count + 1 from x2]; exact fontNo_mem _ (counts_nodup h.inv.res.reach) x1 l1
  rw [hfont]
  exact l3

theorem OnPage.tinted {sc : Scene} {ops : List Op} (q : OnPage sc e d ops prot) {gs : List Nat} {st : Option (Nat × Nat)}
    (ha : Program.Applies d gs st) : Tinted sc.file sc.page gs st := by
  cases st with
  | none => exact ha
  | some p =>
    refine ⟨ha.1, fun n hn => ?_⟩
    have := q.blends (st := some p) (gs := [n]) ⟨n, rfl, ha.2 n hn⟩
    obtain ⟨m, hm, hf⟩ := this
    simp only [List.cons.injEq, and_true] at hm
    subst hm
    exact hf

/-- **C85** Text is painted in the file with the transparency asked for.  A viewer meets on every page one code for each character
written there, in order, and each is shown in graphics states with the alpha and blend mode asked for: for CellWithOption the call's own
or else those of the last SetTransparency; Text, Cell, and everything while no transparency is in effect, are shown in no graphics state.
Text that may be joined with the text before must ask for the same (`Parted`). -/
theorem text_tint_in_file (h : Printed e base prot ml mt prog s calls d c) (hsharp : ∀ x ∈ prog, ∀ t ∈ settingsOf x, t.sharp)
    (hpart : Parted none none prog) :
    ∃ pages, view c (file e d) = some pages ∧ pages.length = prog.countP startsPage ∧
      ∀ (k : Nat) page o, pages[k]? = some (page, o) →
        (tints [] [] o).map Prod.fst = (letters {} [] .away o).map (·.code) ∧
        List.Forall₂ (fun x t => Tinted (file e d) page x.2 t) (tints [] [] o) (tinted (k + 1) 0 none prog) := by
  obtain ⟨ps, h1, h2, h3, h4⟩ := program_view h.output
  refine ⟨ps, h1, by rw [h2, count_pages prog _ s calls h.run], fun k page o hk => ⟨Program.tints_letters _ _ _ _ _ _, ?_⟩⟩
  obtain ⟨⟨-, q1⟩, n, cs, ls, r0, q2, rfl⟩ := h4 k page o hk
  have hres : Program.Res (Typeset.start prot ml mt).prog := Program.res_start prot ml mt
  obtain ⟨new, n1, n2⟩ := tinted_exts (base := base) (k + 1) prog none none _ s calls (inv_start base prot ml mt) hres h.ok
    ⟨rfl, by simp [Typeset.start, Program.start, Doc.start]⟩ (by intro pre t ht; simp [Typeset.start, Program.start, Content.start] at ht) hsharp hpart rfl h.run
  rw [show Program.exts ((Typeset.start prot ml mt).prog.content.pages.getD (k + 1) []) = [] by
    simp [Typeset.start, Program.start, Content.start, Program.exts], List.nil_append] at n1
  have hread := Program.tints_page (s.env base) _ (fun t ht => h.glyphs (k + 1) t ht) 0
  rw [List.replicate_zero, ← Program.tints_near q1, n1] at hread
  rw [show (Typeset.start prot ml mt).prog.content.page = 0 from rfl, ← hread, List.forall₂_map_left_iff] at n2
  have hext : Ext s.prog.doc d := by rw [h.doc]; exact exec_ext _ _
  have hpage : OnPage { decoder := c, file := file e d, page := objVal e d (n - 1) (.page cs ls r0), prog := calls, env := s.env base, widths := fun _ _ => 0, picture := fun _ _ => True, csName := e.csName }
      e d (Program.docOps 1 calls) prot := by
    exact ⟨h.output.compiled, rfl, ⟨n, cs, ls, r0, q2, rfl⟩, h.md5, h.key, rfl, fun _ _ _ _ _ _ _ => trivial, ⟨s.prog, h.output.render⟩⟩
  exact n2.imp fun x t hxt => hpage.tinted (hxt.ext hext)

end
end Verif.Props
