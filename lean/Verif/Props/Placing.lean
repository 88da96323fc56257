import Verif.Lemmas.Objects.Places
import Verif.Lemmas.Program.Heights
import Verif.Props.Program
/- C61-C63: links, anchors, bookmarks and page boxes of a program, in the file. -/
set_option maxRecDepth 10000
namespace Verif.Props
open Doc Objects ObjectValue PdfObject FileReader
open Placing (paper docSize_paper Plan Sheet Link Bookmark ShowsLink ShowsMark docSize plan toProgram StoresAll plainOther SheetOK LinkOK MarkOK AnchorOK)

/-- A program with pages, links, anchors and bookmarks, and its file. -/
structure Placed (e : Objects.Env) (ce : Content.Env) (size : Units.Rect) (prot : Bool) (ml mt : ℚ) (prog : List Placing.Call)
    (s : Program.St) (d : Doc) (c : Decoder) : Prop where
  out : Output e ce prot ml mt (toProgram ce size 1 prog) s d c
  stores : StoresAll e ce size (Program.start prot ml mt) prog
  size : e.size = ((docSize ce size).w, (docSize ce size).h)
  others : ∀ k, Placing.Call.other k ∈ prog → plainOther k = true

/-- What the program asked for. -/
abbrev asked (ce : Content.Env) (size : Units.Rect) (prot : Bool) (ml mt : ℚ) (prog : List Placing.Call) : Plan :=
  plan ce size {} (Program.start prot ml mt) prog

variable {e : Objects.Env} {ce : Content.Env} {size : Units.Rect} {prot : Bool} {ml mt : ℚ} {prog : List Placing.Call} {s : Program.St}
  {d : Doc} {c : Decoder}

/-- What is known of the compiled document. -/
theorem Placed.inv (h : Placed e ce size prot ml mt prog s d c) : ∃ P L, d = s.doc.prepare ∧
    Placing.Inv e ce (paper ce size).2 (asked ce size prot ml mt prog) s P L ∧
    Placing.Inv e ce (paper ce size).2 (asked ce size prot ml mt prog) ⟨d, s.content, s.next⟩ P L := by
  obtain ⟨P, L, i⟩ := Placing.Inv.steps prog {} (Program.start prot ml mt) s [] [] (Placing.inv_start e ce _ prot ml mt) h.others h.stores h.out.run
  have hd : d = s.doc.prepare := by
    rw [h.out.doc, exec_append, show s.doc = exec (start prot) (Program.docOps 1 (toProgram ce size 1 prog)) from (Program.steps_doc _ _ s h.out.run).1]
    rfl
  rw [docSize_paper] at i
  exact ⟨P, L, hd, i, i.other (op := .compile) rfl hd⟩

/-- The pages of the file, by number. -/
theorem Placed.pageIds (h : Placed e ce size prot ml mt prog s d c) {P : List (Nat × List (Nat × Option Nat))} (hl : Links P d) :
    Doc.pageIds (start prot) (Program.docOps 1 (toProgram ce size 1 prog)) = P.map (·.1) := by
  obtain ⟨h1, -⟩ := exec_pageNums (Program.docOps 1 (toProgram ce size 1 prog)) (start prot) ⟨prot, [], rfl⟩
  have h0 : (start prot).pageNums = [] := by cases prot <;> decide +kernel
  rw [h0, List.nil_append] at h1
  rw [← h1, ← hl.pages, h.out.doc, exec_append]
  have := step_pageNums (d := exec (start prot) (Program.docOps 1 (toProgram ce size 1 prog))) ⟨prot, _, rfl⟩ .compile
  rw [if_neg (by simp), List.append_nil] at this
  exact this.symm

/-- The catalog and the page tree a reader finds. -/
theorem Placed.tree (h : Placed e ce size prot ml mt prog s d c) {P : List (Nat × List (Nat × Option Nat))} (hl : Links P d) :
    ∃ o n, d.objAt 1 = some (.catalog o) ∧ d.objAt 2 = some (.pages (P.map (·.1)) n) := by
  have hr := h.out.compiled.reachable
  obtain ⟨o, h1, h2⟩ := (reachable_base hr).b0 |> ok_of_ident (k := "") (i := 0) <| rfl
  cases o <;> simp [Obj.kind] at h2
  next o =>
  obtain ⟨t1, -⟩ := page_tree_first_compile prot (Program.docOps 1 (toProgram ce size 1 prog)) (Program.docOps_plain _ 1).1
  rw [← h.out.doc, h.pageIds hl] at t1
  unfold Doc.pageTree at t1
  split at t1
  · next k c' hk' => simp only [Option.some.injEq, Prod.mk.injEq] at t1; exact ⟨o, _, h1, by rw [hk', t1.1]⟩
  · simp at t1

theorem Placed.pageRefs (h : Placed e ce size prot ml mt prog s d c) {P : List (Nat × List (Nat × Option Nat))} (hl : Links P d) :
    Placing.pageRefs (file e d) = some (P.map (·.1)) := by
  obtain ⟨o, n, h1, h2⟩ := h.tree hl
  have o1 := h.out.compiled.object h1 trivial
  have o2 := h.out.compiled.object h2 trivial
  unfold Placing.pageRefs pageTree
  rw [trailer_reads_back e d h.out.info h.out.size]
  simp only [Option.bind_some, follow, get_trailer_root, refOf, o1, get_catalog_type, N, if_true, get_catalog_pages, o2, get_pages_type,
    Option.map_some, get_pages_kids, ObjectValue.refs]
  rw [List.map_map]
  have := sequence_map (P.map (·.1)) (fun n => refOf (.ref n)) id (fun _ _ => rfl)
  simpa [Function.comp_def, refOf] using this

theorem Placed.pages (h : Placed e ce size prot ml mt prog s d c) {P : List (Nat × List (Nat × Option Nat))} (hl : Links P d) :
    FileReader.pages (file e d) = some (P.map fun x => objVal e d (x.1 - 1) ((d.objAt x.1).getD .imported)) := by
  have := (pages_in_file e h.out.sound h.out.names h.out.info prot _ (Program.docOps_plain (toProgram ce size 1 prog) 1).1 (h.out.doc ▸ h.out.size)).1
  rw [← h.out.doc, h.pageIds hl] at this
  rw [this, List.map_map]; rfl

/-- The page and what was asked for it. -/
theorem Placed.page (h : Placed e ce size prot ml mt prog s d c) {P : List (Nat × List (Nat × Option Nat))} {L : List (Nat × Nat × Nat)}
    (i : Placing.Inv e ce (paper ce size).2 (asked ce size prot ml mt prog) ⟨d, s.content, s.next⟩ P L) {k : Nat} {t : Sheet}
    (ht : (asked ce size prot ml mt prog).sheets[k]? = some t) :
    ∃ n ls cs r, P[k]? = some (n, ls) ∧ SheetOK e ce (paper ce size).2 (n, ls) t ∧ d.objAt n = some (.page cs (ls.map (·.1)) r) ∧
      object (file e d) n = some (objVal e d (n - 1) (.page cs (ls.map (·.1)) r), none) ∧
      ∀ y ∈ ls, d.objAt y.1 = some (.annot y.2) := by
  have hlen := Placing.forall₂_len i.sheets
  have hk : k < P.length := by rw [hlen]; exact (List.getElem?_eq_some_iff.1 ht).1
  obtain ⟨hk2, hk3⟩ := List.getElem?_eq_some_iff.1 ht
  have hs := (List.forall₂_iff_get.1 i.sheets).2 k hk hk2
  simp only [List.get_eq_getElem, hk3] at hs
  have hmem := List.getElem_mem hk
  obtain ⟨cs, r, ho⟩ := i.links.node _ hmem
  exact ⟨_, _, cs, r, by rw [List.getElem?_eq_getElem hk]; rfl, hs, ho, h.out.compiled.object ho trivial, i.links.annot _ hmem⟩

theorem num_cast (n : Nat) : ObjectValue.nat n = .num (n : ℚ) := rfl

/-- A link in the file. -/
theorem Placed.link (h : Placed e ce size prot ml mt prog s d c) {P : List (Nat × List (Nat × Option Nat))} {L : List (Nat × Nat × Nat)}
    (i : Placing.Inv e ce (paper ce size).2 (asked ce size prot ml mt prog) ⟨d, s.content, s.next⟩ P L) (k : Nat) {y : Nat × Option Nat} {l : Link}
    (hy : d.objAt y.1 = some (.annot y.2)) (hl : LinkOK e (paper ce size).2 y l) :
    ShowsLink c (file e d) (P.map (·.1)) (fun _ => (paper ce size).2) (asked ce size prot ml mt prog) k y.1 l := by
  obtain ⟨n, a⟩ := y
  obtain ⟨h1, h2⟩ := hl
  obtain ⟨s1, s2, s3⟩ := get_annot_start e d (n - 1) a
  have hn := objAt_pos hy
  simp only at hn h1 hy h2
  rw [h1] at s3
  unfold ShowsLink
  cases ht : l.target with
  | url u =>
    rw [ht] at h2
    obtain ⟨rfl, h2⟩ := h2
    obtain ⟨u1, u2⟩ := get_annot_url e d (n - 1)
    obtain ⟨v1, v2⟩ := get_action (.str (stored e (n - 1 + 1) (e.url (n - 1))))
    refine ⟨_, _, _, _, h.out.compiled.object hy trivial, ⟨s1, s2, s3⟩, u2, u1, v1, v2, ?_⟩
    rw [hn, decrypt_stored h.out.md5 h.out.key, h2]
  | anchor name =>
    rw [ht] at h2
    have h2 : a = some (Placing.code name) := h2
    subst h2
    show ∀ a, _
    intro p hp
    have ha := i.anchors name
    rw [show (asked ce size prot ml mt prog).anchors name = some p from hp] at ha
    obtain ⟨j, tag, a1, a2, -, a4⟩ := ha
    obtain ⟨u1, u2⟩ := get_annot_dest e d (n - 1) (Placing.code name) j tag a1
    refine ⟨_, _, h.out.compiled.object hy (by show (assoc d.anchors _).isSome = true; rw [show assoc d.anchors _ = _ from a1]; rfl), ⟨s1, s2, s3⟩, u1, ?_⟩
    rw [u2, ← a2, a4]
    cases j <;> rfl

/-- Links of a program, measured against the default page size. -/
theorem links_by_default_height (h : Placed e ce size prot ml mt prog s d c) :
    ∃ refs pages, Placing.pageRefs (file e d) = some refs ∧ FileReader.pages (file e d) = some pages ∧
      pages.length = (asked ce size prot ml mt prog).sheets.length ∧
      ∀ (k : Nat) (t : Sheet) (page : Val), (asked ce size prot ml mt prog).sheets[k]? = some t → pages[k]? = some page →
        ∃ ns, Placing.annots page = some ns ∧
          List.Forall₂ (ShowsLink c (file e d) refs (fun _ => (paper ce size).2) (asked ce size prot ml mt prog) (k + 1)) ns t.links := by
  obtain ⟨P, L, hprep, i0, i⟩ := h.inv
  refine ⟨_, _, h.pageRefs i.links, h.pages i.links, by simp [Placing.forall₂_len i.sheets], fun k t page ht hp => ?_⟩
  obtain ⟨n, ls, cs, r, p1, p2, p3, p4, p5⟩ := h.page i ht
  rw [List.getElem?_map, p1] at hp
  simp only [Option.map_some, p3, Option.getD_some, Option.some.injEq] at hp
  subst hp
  refine ⟨ls.map (·.1), ?_, ?_⟩
  · unfold Placing.annots
    rw [get_page_annots]
    cases ls with
    | nil => rfl
    | cons y ls =>
      have := sequence_map ((y :: ls).map (·.1)) (fun n => refOf (.ref n)) id (fun _ _ => rfl)
      simp only [List.map_cons, List.cons_ne_nil, if_false, ObjectValue.refs] at this ⊢
      simpa [Function.comp_def, refOf] using this
  · rw [List.forall₂_map_left_iff]
    have h3 := p2.2.2
    simp only at h3
    clear p1 p2 p4 p3 ht
    generalize t.links = tl at h3
    induction h3 with
    | nil => exact .nil
    | cons hab _ ih => exact .cons (h.link i (k + 1) (p5 _ (by simp)) hab) (ih fun y hy => p5 y (by simp [hy]))

/-! ### C63: page boxes -/

/-- **C63** Every page of the file has the size asked for: `/MediaBox`, inherited from the page tree or its own, is the page's
size, rounded to 1/100 point; `/TrimBox` is the one of the page's option, if the option has a size and the box is not empty. -/
theorem page_boxes (h : Placed e ce size prot ml mt prog s d c) :
    ∃ pages, FileReader.pages (file e d) = some pages ∧ pages.length = (asked ce size prot ml mt prog).sheets.length ∧
      ∀ (k : Nat) (t : Sheet) (page : Val), (asked ce size prot ml mt prog).sheets[k]? = some t → pages[k]? = some page →
        Placing.mediaBox (file e d) page = some (.arr [.num 0, .num 0,
          Placing.rounded 2 ((asked ce size prot ml mt prog).size ce size (k + 1)).1, Placing.rounded 2 ((asked ce size prot ml mt prog).size ce size (k + 1)).2]) ∧
        page.get (lit "TrimBox") = (if t.size.isSome then t.trim else none).map fun b =>
          .arr [Placing.rounded 2 b.left, Placing.rounded 2 b.top, Placing.rounded 2 b.right, Placing.rounded 2 b.bottom] := by
  obtain ⟨P, L, hprep, i0, i⟩ := h.inv
  refine ⟨_, h.pages i.links, by simp [Placing.forall₂_len i.sheets], fun k t page ht hp => ?_⟩
  obtain ⟨n, ls, cs, r, p1, p2, p3, p4, p5⟩ := h.page i ht
  rw [List.getElem?_map, p1] at hp
  simp only [Option.map_some, p3, Option.getD_some, Option.some.injEq] at hp
  subst hp
  obtain ⟨q1, q2, -⟩ := p2
  simp only at q1 q2
  refine ⟨?_, by rw [get_page_trim, q2]; cases t.size <;> cases t.trim <;> rfl⟩
  unfold Placing.mediaBox Plan.size
  rw [get_page_media, q1, Nat.add_sub_cancel, ht]
  cases hs : t.size with
  | some x => simp [hs, Placing.rounded, rnd, num_cast]
  | none =>
    obtain ⟨o, m, h1, h2⟩ := h.tree i.links
    simp [hs, follow, get_page_parent, refOf, h.out.compiled.object h2 trivial, get_pages_type, N, get_pages_media, h.size, docSize_paper, Placing.rounded, rnd, num_cast]

/-- **C63** The drawing calls measure from the upper edge of the page as the file gives it: the sheets of the canvas (C60) have the
heights of the pages' boxes. -/
theorem drawing_height (h : Placed e ce size prot ml mt prog s d c) {cv : Canvas.Canvas}
    (hcv : (Canvas.blank 0).calls ce (Program.requests ce (Program.start prot ml mt) (toProgram ce size 1 prog)) = some cv) :
    cv.sheets.length = (asked ce size prot ml mt prog).sheets.length + 1 ∧
    ∀ (k : Nat) (sh : Canvas.Sheet), cv.sheets[k + 1]? = some sh → sh.height = ((asked ce size prot ml mt prog).size ce size (k + 1)).2 := by
  have h1 := Placing.calls_heights _ _ _ hcv
  have h2 := Placing.plan_heights (ce := ce) (size := size) prog {} (Program.start prot ml mt) s h.others h.out.run
  simp only [List.map_nil, List.nil_append] at h2
  rw [show (Program.start prot ml mt).next = 1 from rfl] at h2
  rw [← h2] at h1
  simp only [Canvas.blank, List.map_cons, List.map_nil, List.singleton_append] at h1
  refine ⟨by simpa using congrArg List.length h1, fun k sh hk => ?_⟩
  have := congrArg (fun l : List ℚ => l[k + 1]?) h1
  simp only [List.getElem?_map, hk, Option.map_some, List.getElem?_cons_succ] at this
  unfold Plan.size
  rw [Nat.add_sub_cancel]
  cases ht : (plan ce size {} (Program.start prot ml mt) prog).sheets[k]? with
  | none => rw [ht] at this; simp at this
  | some t =>
    rw [ht] at this
    simp only [Option.map_some, Option.some.injEq, Placing.sheetHeight] at this
    rw [this]
    cases hs : t.size <;> simp [hs]

/-! ### C62: bookmarks -/

/-- The bookmarks from number `k` on, following `/Next`. -/
theorem siblings_read (h : Placed e ce size prot ml mt prog s d c) {L : List (Nat × Nat × Nat)} (hm : Marks L d) : ∀ (m k fuel : Nat),
    L.length = k + m → m ≤ fuel → Placing.siblings (file e d) fuel ((L[k]?).map (·.1 + 1)) =
      some ((L.drop k).map fun x => objVal e d x.1 ((d.objs[x.1]?).getD .imported))
  | 0, k, fuel, h1, _ => by
    rw [List.getElem?_eq_none (by omega), List.drop_of_length_le (by omega)]
    cases fuel <;> rfl
  | m + 1, k, 0, _, h2 => by omega
  | m + 1, k, fuel + 1, h1, h2 => by
    have hk : k < L.length := by omega
    rw [List.getElem?_eq_getElem hk, List.drop_eq_getElem_cons hk]
    generalize hx : L[k] = x at *
    obtain ⟨i, t, de⟩ := x
    have hn := hm.node k i t de (by rw [List.getElem?_eq_getElem hk, hx])
    have ho := h.out.compiled.object (n := i + 1) (o := .outline t de 2 _ _) hn trivial
    obtain ⟨-, -, g3, -⟩ := get_outline e d i t de 2 (if k = 0 then none else (L[k - 1]?).map (·.1 + 1)) ((L[k + 1]?).map (·.1 + 1))
    have ih := siblings_read h hm m (k + 1) fuel (by omega) (by omega)
    simp only [Option.map_some, Placing.siblings, ho, Option.bind_some, Nat.add_sub_cancel, g3, List.map_cons, hn, Option.getD_some]
    have : ((Option.map (fun x => x.1 + 1) L[k + 1]?).map Val.ref).bind refOf = Option.map (fun x => x.1 + 1) L[k + 1]? := by
      cases L[k + 1]? <;> rfl
    rw [this, ih]
    rfl

/-- Bookmarks of a program, measured against the default page size. -/
theorem bookmarks_by_default_height (h : Placed e ce size prot ml mt prog s d c) (fuel : Nat)
    (hf : (asked ce size prot ml mt prog).marks.length ≤ fuel) :
    ∃ refs vs, Placing.pageRefs (file e d) = some refs ∧ Placing.bookmarks (file e d) fuel = some vs ∧
      List.Forall₂ (ShowsMark refs (fun _ => (paper ce size).2)) vs (asked ce size prot ml mt prog).marks := by
  obtain ⟨P, L, hprep, i0, i⟩ := h.inv
  have hm : Marks L d := i.marks
  have hlen := Placing.forall₂_len i.titles
  have hsib := siblings_read h hm L.length 0 fuel (by omega) (by omega)
  refine ⟨_, L.map fun x => objVal e d x.1 ((d.objs[x.1]?).getD .imported), h.pageRefs i.links, ?_, ?_⟩
  · obtain ⟨o, n, h1, h2⟩ := h.tree i.links
    have o1 := h.out.compiled.object h1 trivial
    have hroot : d.objAt 3 = some (.outlines (L.head?.map (·.1 + 1)) (L.getLast?.map (·.1 + 1)) L.length) := hm.root
    have o3 := h.out.compiled.object hroot trivial
    obtain ⟨g1, g2, -⟩ := get_outlines e d 2 (L.head?.map (·.1 + 1)) (L.getLast?.map (·.1 + 1)) L.length
    unfold Placing.bookmarks
    rw [trailer_reads_back e d h.out.info h.out.size]
    simp only [Option.bind_some, follow, get_trailer_root, refOf, o1, get_catalog_type, N, if_true, get_catalog_outlines]
    have hfirst : ((L.head?.map (·.1 + 1)).map Val.ref).bind refOf = (L[0]?).map (·.1 + 1) := by
      cases L <;> rfl
    have found : (Placing.siblings (file e d) fuel (((L.head?.map (·.1 + 1)).map Val.ref).bind refOf)) =
        some (L.map fun x => objVal e d x.1 ((d.objs[x.1]?).getD .imported)) := by
      rw [hfirst, hsib, List.drop_zero]
    cases o with
    | some m =>
      have hm3 : m = 3 := by
        obtain ⟨o, w1, w2⟩ := reachable_wf h.out.compiled.reachable 0 (.catalog (some m)) h1 ⟨"Outlines", m, .outlineRoot⟩ (by simp [core, Doc.refs])
        unfold Doc.objAt at w1
        split at w1
        · simp at w1
        · rcases reachable_obj h.out.compiled.reachable w1 with ⟨_, hk⟩ | ⟨_, hk⟩ | ⟨hi, _⟩ | ⟨_, hk⟩ | ⟨_, hk⟩
          · rw [hk] at w2; simp at w2
          · rw [hk] at w2; simp at w2
          · have hi : m - 1 = 2 := hi
            omega
          · rw [hk] at w2; simp at w2
          · cases o <;> simp [Obj.kind] at w2; exact absurd hk id
      subst hm3
      simp only [Option.map_some, Option.bind_some, refOf, o3, g1, N, if_true, g2, found]
    | none =>
      simp only [Option.map_none]
      cases L with
      | nil => rfl
      | cons x L =>
        exfalso
        have hr : s.doc.objs[outlinesIdx]? = _ := i0.marks.root
        have := Placing.catalog_outlines (reachable_base i0.reach) hr (by simp)
        rw [← hprep, h1] at this
        simp at this
  · rw [List.forall₂_map_left_iff]
    have hnode : ∀ x ∈ L, ∃ p pr ne, d.objs[x.1]? = some (.outline x.2.1 x.2.2 p pr ne) := by
      intro x hx
      obtain ⟨k, hk⟩ := List.mem_iff_getElem?.1 hx
      exact ⟨_, _, _, hm.node k x.1 x.2.1 x.2.2 hk⟩
    have ht := i.titles
    generalize (asked ce size prot ml mt prog).marks = bs at ht
    clear hsib hlen hm i i0 hf
    induction ht with
    | nil => exact .nil
    | @cons x b _ _ hab _ ih =>
      refine .cons ?_ (ih fun y hy => hnode y (by simp [hy]))
      obtain ⟨p, pr, ne, hx⟩ := hnode x (by simp)
      obtain ⟨t1, t2, t3, -⟩ := hab
      obtain ⟨g1, g2, -⟩ := get_outline e d x.1 x.2.1 x.2.2 p pr ne
      rw [hx, Option.getD_some]
      refine ⟨by rw [g1, t1], ?_⟩
      rw [g2, t2, t3]
      rfl

/-! ### On pages of the default height -/

/-- All pages have the default height. -/
def DefaultHeight (p : Plan) (h : ℚ) : Prop := ∀ t ∈ p.sheets, ∀ s, t.size = some s → s.2 = h

theorem default_height {p : Plan} (hd : DefaultHeight p (paper ce size).2) : (fun n => (p.size ce size n).2) = fun _ => (paper ce size).2 := by
  funext n
  unfold Plan.size
  cases hn : p.sheets[n - 1]? with
  | none => rfl
  | some t =>
    cases hs : t.size with
    | none => simp [hs]
    | some x => simp [hs, hd t (List.mem_of_getElem? hn) x hs]

/-- **C61** In a document whose pages all have the default height, every page of the file has the links put on it, in order: a
link annotation covers the area asked for and opens the address (decrypted, in a protected document), or goes to the page and height
of the anchor. -/
theorem links_in_file (h : Placed e ce size prot ml mt prog s d c) (hd : DefaultHeight (asked ce size prot ml mt prog) (paper ce size).2) :
    ∃ refs pages, Placing.pageRefs (file e d) = some refs ∧ FileReader.pages (file e d) = some pages ∧
      pages.length = (asked ce size prot ml mt prog).sheets.length ∧
      ∀ (k : Nat) (t : Sheet) (page : Val), (asked ce size prot ml mt prog).sheets[k]? = some t → pages[k]? = some page →
        ∃ ns, Placing.annots page = some ns ∧
          List.Forall₂ (ShowsLink c (file e d) refs (fun n => ((asked ce size prot ml mt prog).size ce size n).2) (asked ce size prot ml mt prog) (k + 1)) ns t.links := by
  rw [default_height hd]
  exact links_by_default_height h

/-- **C62** In a document whose pages all have the default height, the bookmarks of the file are the ones added, in order, with
their titles, each leading to the page and height asked for. -/
theorem bookmarks_in_file (h : Placed e ce size prot ml mt prog s d c) (hd : DefaultHeight (asked ce size prot ml mt prog) (paper ce size).2)
    (fuel : Nat) (hf : (asked ce size prot ml mt prog).marks.length ≤ fuel) :
    ∃ refs vs, Placing.pageRefs (file e d) = some refs ∧ Placing.bookmarks (file e d) fuel = some vs ∧
      List.Forall₂ (ShowsMark refs (fun n => ((asked ce size prot ml mt prog).size ce size n).2)) vs (asked ce size prot ml mt prog).marks := by
  rw [default_height hd]
  exact bookmarks_by_default_height h fuel hf

end Verif.Props
