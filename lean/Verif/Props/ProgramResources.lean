import Verif.Lemmas.Doc.OnlyFonts
import Verif.Props.Program
/- C58: the resources what a program draws needs are in its file. -/
set_option maxRecDepth 10000
namespace Verif.Props
open Doc Objects ObjectValue PdfObject FileReader Viewer

theorem addFont_mem : ∀ (prog : List Program.Call) (n f st : Nat) (b : Bool), Op.addFont f st b ∈ Program.docOps n prog →
    Program.Call.object (.addFont f st b) ∈ prog
  | [], n, f, st, b, h => by simp [Program.docOps] at h
  | k :: prog, n, f, st, b, h => by
    simp only [Program.docOps, List.mem_append] at h
    rcases h with h | h
    · cases hd : Program.docOp n k with
      | none => rw [hd] at h; simp at h
      | some o =>
        rw [hd] at h
        obtain rfl : o = some (Op.addFont f st b) := by simpa using h
        cases k with
        | object op =>
          simp only [Program.docOp] at hd
          split at hd
          · simp only [Option.some.injEq] at hd; subst hd; simp
          · simp at hd
        | plain c =>
          simp only [Program.docOp, Option.map_eq_some_iff] at hd
          obtain ⟨_, _, _, _, hd⟩ := hd
          simp at hd
        | _ => simp [Program.docOp] at hd
    · exact List.mem_cons_of_mem _ (addFont_mem prog (n + 1) f st b h)

/-- Everything on the pages names resources of the finished document. -/
theorem program_items {e : Objects.Env} {ce : Content.Env} {prot : Bool} {ml mt : ℚ} {prog : List Program.Call} {s : Program.St}
    {d : Doc} {c : Decoder} (h : Output e ce prot ml mt prog s d c) : ∀ p ∈ s.content.pages, ∀ i ∈ p, Program.ItemNamed d i := by
  have hr := Program.Res.steps prog _ s (Program.res_start prot ml mt) h.run
  have hd := (Program.steps_doc prog _ s h.run).1
  have hdd : d = exec s.doc [.compile] := by
    rw [h.doc, exec_append]
    rw [show s.doc = exec (start prot) (Program.docOps 1 prog) from hd]
  intro p hp i hi
  have := hr.items p hp i hi
  rw [hdd]
  exact this.grow (grow_exec (reachable_base hr.reach) _) (exec_ext _ _)

theorem program_nounderline {e : Objects.Env} {ce : Content.Env} {prot : Bool} {ml mt : ℚ} {prog : List Program.Call} {s : Program.St}
    {d : Doc} {c : Decoder} (h : Output e ce prot ml mt prog s d c)
    (hu : ∀ f st, Program.Call.object (.addFont f st true) ∈ prog → noUnderline st = st) : NoUL d := by
  intro i f st k cid uni hi
  have b : Base (start prot) := reachable_base ⟨prot, [], rfl⟩
  refine font_styles (P := fun st => noUnderline st = st) (Program.docOps 1 prog ++ [.compile]) (start prot) b ?_ ?_ f st k cid uni
    (h.doc ▸ List.mem_of_getElem? hi)
  · intro f st hm
    refine hu f st (addFont_mem prog 1 f st true ?_)
    simpa using hm
  · intro f st k cid uni hm
    simp [Doc.idents, start, Obj.ident] at hm

theorem font_type (e : Objects.Env) (d : Doc) (i f a b cid uni : Nat) : Has "Type" "Font" (objVal e d i (.font f a b cid uni)) := by
  unfold Has
  simp only [objVal]; lookup; rfl

theorem gs_type (e : Objects.Env) (d : Doc) (i : Nat) (g : GKey) : Has "Type" "ExtGState" (objVal e d i (.extGS g)) := by
  unfold Has
  cases g <;> (simp only [objVal]; lookup; rfl)

theorem image_type (e : Objects.Env) (d : Doc) (i id : Nat) (info : ImgInfo) (s g : Option Nat) :
    Has "Subtype" "Image" (objVal e d i (.image id info s g)) := by
  unfold Has
  cases hm : info.isMask <;>
    (simp only [objVal, imageDict, imageBase, hm, if_true, if_false, Bool.false_eq_true, List.append_assoc]; lookup; rfl)

theorem cs_separation (e : Objects.Env) (d : Doc) (i n k : Nat) : Separation (objVal e d i (.colorSpace n k)) := by
  simp only [objVal, ObjectValue.separation]
  cases e.ink i <;> exact ⟨_, rfl⟩

theorem nodup_counts {names : List (Nat × Nat)} {counts : List Nat} {n : Nat} (h : names.map (·.1) = counts.map (· + 1))
    (hc : counts = List.range n) : (names.map (·.1)).Nodup := by
  rw [h, hc, List.nodup_iff_pairwise_ne]
  exact List.Pairwise.map _ (fun a b hab => by simpa using hab) (List.nodup_iff_pairwise_ne.1 List.nodup_range)

theorem nodup_ones {names : List (Nat × Nat)} {l : List Nat} (h : names.map (·.1) = l.map (· + 1)) (hl : l.Nodup) : (names.map (·.1)).Nodup := by
  rw [h, List.nodup_iff_pairwise_ne]
  exact List.Pairwise.map _ (fun a b hab => by simpa using hab) (List.nodup_iff_pairwise_ne.1 hl)

/-- A named resource of the document is found in the file. -/
theorem named_resolves {e : Objects.Env} {prot : Bool} {h : List Op} {d : Doc} (c : Compiled e prot h d) (hu : NoUL d) {n : Nat} {cs ls : List Nat}
    {r : Nat} (ho : d.objAt n = some (.page cs ls r)) {op : Paint.Op} (hop : OpNamed d op) :
    Resolves (file e d) (objVal e d (n - 1) (.page cs ls r)) op := by
  obtain ⟨page, data, h0, h1, h2, h3, h4⟩ := resources_in_file c n cs ls r ho
  rw [c.object ho trivial, Option.some.injEq, Prod.mk.injEq] at h0
  obtain ⟨h0, -⟩ := h0
  subst h0
  have hres := reachable_res c.reachable
  have b := reachable_base c.reachable
  have space : ∀ k, Program.SpaceNamed d k → Finds (file e d) (objVal e d (n - 1) (.page cs ls r)) "ColorSpace" "CS" k Separation := by
    rintro k ⟨f, hf, rfl⟩
    obtain ⟨x, a1, a2⟩ := objAt_ident (hres.csObj f hf)
    cases x <;> simp [Obj.ident] at a2
    refine ⟨f.index + 1, _, _, h2 _ _ (denotes_of' (nodup_counts (by simp [Doc.csNames]) hres.csCount) (List.mem_map.2 ⟨f, hf, rfl⟩)),
      c.object a1 trivial, cs_separation _ _ _ _ _⟩
  cases op with
  | Tf k size =>
    obtain ⟨f, hf, rfl⟩ := hop hu
    obtain ⟨st, ci, u, q1, q2⟩ := hres.fontObj f hf
    obtain ⟨x, a1, a2⟩ := objAt_ident q1
    cases x <;> simp [Obj.ident] at a2
    exact ⟨f.index + 1, _, _, h1 _ _ (denotes_of' (nodup_counts (by simp [Doc.fontNames]) hres.fontCount) (List.mem_map.2 ⟨f, hf, rfl⟩)),
      c.object a1 trivial, font_type _ _ _ _ _ _ _ _⟩
  | gs k =>
    obtain ⟨i, hi, rfl⟩ := hop
    have hi' := hi
    rw [hres.gs] at hi'
    obtain ⟨p, hp, rfl⟩ := List.mem_map.1 hi'
    obtain ⟨x, a1, a2⟩ := objAt_ident (b.gss p.1 p.2 hp)
    cases x <;> simp [Obj.ident] at a2
    exact ⟨p.2 + 1, _, _, h4 _ _ (denotes_of' (nodup_ones (by simp [Doc.gsNames]) (nodup_gss c.reachable)) (List.mem_map.2 ⟨p.2, hi, rfl⟩)),
      c.object a1 trivial, gs_type _ _ _ _⟩
  | image k =>
    obtain ⟨i, hi, rfl⟩ := hop
    have hi' := hi
    rw [hres.xobjs] at hi'
    obtain ⟨p, hp, rfl⟩ := List.mem_map.1 hi'
    obtain ⟨m, hm⟩ := b.imgs p.1 p.2 hp
    obtain ⟨x, a1, a2⟩ := objAt_ident hm
    cases x <;> simp [Obj.ident] at a2
    exact ⟨p.2 + 1, _, _, h3 _ _ (denotes_of' (nodup_ones (by simp [Doc.xobjNames]) (nodup_imgs c.reachable)) (List.mem_map.2 ⟨p.2, hi, rfl⟩)),
      c.object a1 trivial, image_type _ _ _ _ _ _ _⟩
  | strokeColour col => cases col with | named k => exact space k hop | _ => trivial
  | fillColour col => cases col with | named k => exact space k hop | _ => trivial
  | _ => trivial

/-- **C58** Every font, graphics state, image and colour space named by an operator the viewer reads on a page is found, through
the resources of that page, in the file, and is an object of that type - provided no font is registered with the underline bit
in its style (C23 `font_resource_fails` shows that this is needed). -/
theorem program_resources {e : Objects.Env} {ce : Content.Env} {prot : Bool} {ml mt : ℚ} {prog : List Program.Call} {s : Program.St}
    {d : Doc} {c : Decoder} (h : Output e ce prot ml mt prog s d c)
    (hu : ∀ f st, Program.Call.object (.addFont f st true) ∈ prog → noUnderline st = st) :
    ∃ pages, view c (file e d) = some pages ∧ ∀ page o, (page, o) ∈ pages → ∀ op ∈ o, Resolves (file e d) page op := by
  obtain ⟨ps, h1, -, h3, h4⟩ := program_view h
  refine ⟨ps, h1, fun page o hm op hop => ?_⟩
  obtain ⟨k, hk⟩ := List.mem_iff_getElem?.1 hm
  obtain ⟨⟨-, q1⟩, n, cs, ls, r, q2, rfl⟩ := h4 k page o hk
  have hnear : ∃ b ∈ Content.pageOps ce (s.content.pages.getD (k + 1) []), ContentReader.NearOp op b := by
    clear h4 hm hk
    generalize Content.pageOps ce (s.content.pages.getD (k + 1) []) = l at q1
    induction q1 with
    | nil => simp at hop
    | cons hab _ ih =>
      rcases List.mem_cons.1 hop with rfl | hop
      · exact ⟨_, by simp, hab⟩
      · obtain ⟨b, hb, hb'⟩ := ih hop
        exact ⟨b, by simp [hb], hb'⟩
  obtain ⟨b, hb, hn⟩ := hnear
  refine named_resolves h.compiled (program_nounderline h hu) q2 (near_named hn ?_)
  simp only [Content.pageOps, List.mem_flatMap] at hb
  obtain ⟨i, hi, hb⟩ := hb
  refine ops_named ?_ b hb
  rw [List.getD_eq_getElem?_getD] at hi
  cases hx : s.content.pages[k + 1]? with
  | none => simp [hx] at hi
  | some p => rw [hx] at hi; exact program_items h p (List.mem_of_getElem? hx) i hi

end Verif.Props
