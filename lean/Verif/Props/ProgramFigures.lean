import Verif.Lemmas.Content.PageReads
import Verif.Lemmas.Content.Canvas
import Verif.Lemmas.Program.Request
import Verif.Props.ProgramResources
import Verif.Spec.Shows
/- C60: the figures of a program, in the file. -/
set_option maxRecDepth 10000
namespace Verif.Props
open Doc Objects ObjectValue PdfObject FileReader Viewer
open Program (Used MaskUse)

/-- What the theorems about figures need to know about a page. -/
structure OnPage (s : Scene) (e : Objects.Env) (d : Doc) (h : List Op) (prot : Bool) : Prop where
  comp : Compiled e prot h d
  file : s.file = file e d
  page : ∃ n cs ls r, d.objAt n = some (.page cs ls r) ∧ s.page = objVal e d (n - 1) (.page cs ls r)
  md5 : s.decoder.md5 = e.md5
  key : s.decoder.key = e.key
  csName : s.csName = e.csName
  picture : ∀ i id info a g, d.objs[i]? = some (.image id info a g) → Denotes d.xobjNames (i + 1) (i + 1) → s.picture id (i + 1)
  render : ∃ st, e.render = Program.render s.env s.prog st

theorem gs_alpha (e : Objects.Env) (d : Doc) (i a b : Nat) :
    (objVal e d i (.extGS (.alpha a b))).get (lit "ca") = some (.num (a / 1000)) ∧
    (objVal e d i (.extGS (.alpha a b))).get (lit "CA") = some (.num (a / 1000)) ∧
    (objVal e d i (.extGS (.alpha a b))).get (lit "BM") = some (.name (blendName b)) := by
  refine ⟨?_, ?_, ?_⟩ <;> (simp only [objVal]; lookup)

theorem gs_mask (e : Objects.Env) (d : Doc) (i m : Nat) :
    (objVal e d i (.extGS (.smask m))).get (lit "SMask") = some (.ref (m + 1)) := by
  simp only [objVal]; lookup

theorem mask_group (e : Objects.Env) (d : Doc) (i g : Nat) :
    Has "S" "Luminosity" (objVal e d i (.softMask g)) ∧ (objVal e d i (.softMask g)).get (lit "G") = some (.ref (g + 1)) := by
  refine ⟨?_, ?_⟩ <;> (try unfold Has) <;> (simp only [objVal]; lookup; try rfl)

theorem group_form (e : Objects.Env) (d : Doc) (i : Nat) (es : List Doc.Entry) : Has "Subtype" "Form" (objVal e d i (.group es)) := by
  unfold Has
  simp only [objVal]; lookup; rfl

variable {s : Scene} {e : Objects.Env} {d : Doc} {h : List Op} {prot : Bool}

theorem OnPage.res (q : OnPage s e d h prot) :
    (∀ k m, Denotes d.csNames k m → FileReader.resource s.file s.page "ColorSpace" (lit "CS" ++ dec k) = some m) ∧
    (∀ k m, Denotes d.xobjNames k m → FileReader.resource s.file s.page "XObject" (lit "I" ++ dec k) = some m) ∧
    (∀ k m, Denotes d.gsNames k m → FileReader.resource s.file s.page "ExtGState" (lit "GS" ++ dec k) = some m) := by
  obtain ⟨n, cs, ls, r, ho, hp⟩ := q.page
  obtain ⟨page, data, h0, -, h2, h3, h4⟩ := resources_in_file q.comp n cs ls r ho
  rw [q.comp.object ho trivial, Option.some.injEq, Prod.mk.injEq] at h0
  obtain ⟨h0, -⟩ := h0
  subst h0
  rw [hp, q.file]
  exact ⟨h2, h3, h4⟩

theorem OnPage.obj (q : OnPage s e d h prot) {n : Nat} {o : Obj} (ho : d.objAt n = some o) (hw : Written d o) :
    PdfObject.object s.file n = some (objVal e d (n - 1) o, storedData e d (n - 1) o) := by
  rw [q.file]; exact q.comp.object ho hw

theorem OnPage.gs (q : OnPage s e d h prot) {i : Nat} {k : GKey} (hi : d.idents[i]? = some (.extGS k)) :
    FileReader.resource s.file s.page "ExtGState" (lit "GS" ++ dec (i + 1)) = some (i + 1) ∧
    PdfObject.object s.file (i + 1) = some (objVal e d i (.extGS k), none) := by
  have hr := q.comp.reachable
  obtain ⟨x, a1, a2⟩ := objAt_ident hi
  cases x <;> simp [Obj.ident] at a2
  subst a2
  have hi' : i ∈ d.relGSs := by
    rw [(reachable_res hr).gs]
    exact List.mem_map.2 ⟨_, reachable_gs hr i _ hi, rfl⟩
  exact ⟨q.res.2.2 _ _ (denotes_of' (nodup_ones (by simp [Doc.gsNames]) (nodup_gss hr)) (List.mem_map.2 ⟨i, hi', rfl⟩)), q.obj a1 trivial⟩

theorem OnPage.blends (q : OnPage s e d h prot) {gs : List Nat} {st : Option (Nat × Nat)} (ha : d.AppliesAlpha gs st) : s.Blends gs st := by
  cases st with
  | none => exact ha
  | some p =>
    obtain ⟨n, rfl, ho⟩ := ha
    have hn := objAt_pos ho
    have hid := ident_at (show d.objs[n - 1]? = some _ by simpa [Doc.objAt, show n ≠ 0 by omega] using ho)
    obtain ⟨r1, r2⟩ := q.gs hid
    rw [show n - 1 + 1 = n by omega] at r1 r2
    exact ⟨n, rfl, _, _, _, r1, r2, gs_type _ _ _ _, gs_alpha _ _ _ _ _⟩

theorem OnPage.paints (q : OnPage s e d h prot) {x id : Nat} (hp : Program.PictureOK d x id) : s.Paints x id := by
  obtain ⟨i, info, rfl, hi, hid⟩ := hp
  have hr := q.comp.reachable
  obtain ⟨o, a1, a2⟩ := objAt_ident hid
  cases o <;> simp [Obj.ident] at a2
  next id' info' a g =>
  obtain ⟨rfl, rfl⟩ := a2
  have hden : Denotes d.xobjNames (i + 1) (i + 1) := denotes_of' (nodup_ones (by simp [Doc.xobjNames]) (nodup_imgs hr)) (List.mem_map.2 ⟨i, hi, rfl⟩)
  have hobj : d.objs[i]? = some (.image id' info' a g) := by simpa [Doc.objAt] using a1
  exact ⟨i + 1, _, _, q.res.2.1 _ _ hden, q.obj a1 trivial, image_type e d i id' info' a g, q.picture i _ _ _ _ hobj hden⟩

/-- What the group of a mask shows. -/
theorem group_shows (ce : Content.Env) (wd : Paint.Widths) (i : Content.ImageItem) (hm : Canvas.MaskUpright (.image i)) :
    ∃ o exact r, ContentReader.operators (Content.writeItems ce [.image i]).1 = some o ∧ List.Forall₂ ContentReader.NearOp o exact ∧
      Paint.run wd {} exact = some r ∧ Canvas.figures r.marks = [.image (i.index + 1) (Canvas.imageMatrix ce i.pageHeight i) i.ext] ∧
      r.marks.length = 1 := by
  obtain ⟨o, h1, h2⟩ := Content.good_page ce [.image i] (fun j hj => by simp at hj; subst hj; trivial)
  have hr := Content.runs_image wd ce i {} rfl
  refine ⟨o, _, _, h1.operators, h2, by simpa [Content.pageOps, Content.ops] using hr, ?_, by simp⟩
  have := Canvas.image_ctm ce i hm {}
  simp only [Canvas.figures, List.nil_append, List.filterMap_cons, Canvas.figure, List.filterMap_nil]
  congr 1
  simp only [Canvas.Figure.image.injEq]
  refine ⟨trivial, this.trans (Canvas.Mat.mul_one _), ?_⟩
  cases hw : i.withMask <;> simp [Content.imageState, hw]

theorem OnPage.masked (q : OnPage s e d h prot) (hk : s.decoder.key = none) {n tag : Nat} {m : MaskUse} {gs : List Nat}
    (hu : Canvas.MaskUpright (.image m.item)) (h1 : MaskAt d tag n m.picture gs) (h2 : d.AppliesAlpha gs m.setting)
    (h3 : ∀ x, Program.maskItem s.prog { tag := 0, xobj := some (x + 1), gs := gs, mask := tag } =
        [.image { m.item with index := x, ext := gs, pageHeight := m.height }]) : s.Masks n m := by
  obtain ⟨i, k, g, x, info, rfl, a1, a2, a3, a4⟩ := h1
  obtain ⟨r1, r2⟩ := q.gs a1
  obtain ⟨ok, b1, b2⟩ := objAt_ident a2
  cases ok <;> simp [Obj.ident] at b2
  replace b2 := b2.symm
  subst b2
  obtain ⟨og, c1, c2⟩ := objAt_ident a3
  cases og <;> simp [Obj.ident] at c2
  subst c2
  have hx := (reachable_names q.comp.reachable).named g _ (by simpa [Doc.objAt] using c1) _ (List.mem_singleton.2 rfl)
  obtain ⟨x', x1, x2⟩ := hx.xobj _ rfl
  obtain rfl : x = x' := by omega
  obtain ⟨st, hst⟩ := q.render
  obtain ⟨o, exact', r, s1, s2, s3, s4, s5⟩ := group_shows s.env s.widths { m.item with index := x, ext := gs, pageHeight := m.height } hu
  refine ⟨_, _, _, _, _, _, _, _, _, o, exact', x + 1, gs, r, r1, r2, gs_mask e d i k, q.obj b1 trivial, (mask_group e d k g).1,
    (mask_group e d k g).2, q.obj c1 trivial, group_form e d g _, ?_, s2, s3, s4, s5, q.paints ⟨x, info, rfl, x1, a4⟩, q.blends h2⟩
  rw [← s1]
  simp only [Decoder.decrypt, hk, hst, Program.render, if_true, h3]

theorem OnPage.states (q : OnPage s e d h prot) {ext : List Nat} {u : Used} (hu : ∀ m ∈ u.mask, s.decoder.key = none ∧ Canvas.MaskUpright (.image m.item))
    (hg : Program.GsOK s.prog d ext u) : s.States ext u := by
  obtain ⟨g1, g2, rfl, h1, h2⟩ := hg
  refine ⟨g1, g2, rfl, q.blends h1, ?_⟩
  cases hm : u.mask with
  | none => rw [hm] at h2; exact h2
  | some m =>
    rw [hm] at h2
    obtain ⟨n, tag, gs, rfl, r1, r2, r3⟩ := h2
    obtain ⟨u1, u2⟩ := hu m hm
    exact ⟨n, rfl, q.masked u1 u2 r1 r2 r3⟩

theorem cs_name (e : Objects.Env) (d : Doc) (i n k : Nat) :
    ∃ l, objVal e d i (.colorSpace n k) = .arr (.name (lit "Separation") :: .name (e.csName n) :: l) := by
  simp only [objVal, ObjectValue.separation]
  cases e.ink i <;> exact ⟨_, rfl⟩

theorem OnPage.strokes (q : OnPage s e d h prot) {c : Paint.Colour} {sp : Option Nat} (hs : Program.SpaceOK d c sp) : s.Strokes c sp := by
  cases sp with
  | none => exact hs
  | some name =>
    obtain ⟨r, h1, rfl, rfl⟩ := hs
    have hres := reachable_res q.comp.reachable
    obtain ⟨x, a1, a2⟩ := objAt_ident (hres.csObj r h1)
    cases x <;> simp [Obj.ident] at a2
    obtain ⟨rfl, rfl⟩ := a2
    refine ⟨_, rfl, r.index + 1, _, _, q.res.1 _ _ (denotes_of' (nodup_counts (by simp [Doc.csNames]) hres.csCount) (List.mem_map.2 ⟨r, h1, rfl⟩)),
      q.obj a1 trivial, ?_⟩
    rw [q.csName]
    exact cs_name _ _ _ _ _

theorem OnPage.shows (q : OnPage s e d h prot) {f : Canvas.Figure} {u : Used}
    (hu : ∀ m ∈ u.mask, s.decoder.key = none ∧ Canvas.MaskUpright (.image m.item)) (hf : Program.FigOK s.prog d f u) : s.Shows f u := by
  cases f with
  | path k p pen ext => exact ⟨hf.1, q.states hu hf.2.1, q.strokes hf.2.2⟩
  | image n m ext => obtain ⟨id, h1, h2, h3⟩ := hf; exact ⟨id, h1, q.paints h2, q.states hu h3⟩
  | template a b => exact hf

/-! ### The program -/

/-- The calls behind the document's operations. -/
theorem op_mem : ∀ (prog : List Program.Call) (n : Nat) (op : Op), op ∈ Program.docOps n prog →
    ∃ k ∈ prog, ∃ n, Program.docOp n k = some (some op)
  | [], n, op, h => by simp [Program.docOps] at h
  | k :: prog, n, op, h => by
    simp only [Program.docOps, List.mem_append] at h
    rcases h with h | h
    · cases hd : Program.docOp n k with
      | none => rw [hd] at h; simp at h
      | some o =>
        rw [hd] at h
        obtain rfl : o = some op := by simpa using h
        exact ⟨k, by simp, n, hd⟩
    · obtain ⟨k', h1, h2⟩ := op_mem prog (n + 1) op h
      exact ⟨k', List.mem_cons_of_mem _ h1, h2⟩

/-- A property of all drawing calls, from the calls of the program. -/
theorem draw_mem {ce : Content.Env} : ∀ (prog : List Program.Call) (s : Program.St), ∀ x ∈ Program.drawCalls ce s prog,
    ∃ k ∈ prog, ∃ d en n o, Program.docOp n k = some o ∧ Program.contentCall d en k = some x
  | [], s, x, h => by simp [Program.drawCalls] at h
  | k :: prog, s, x, h => by
    have hrest := fun s' => draw_mem (ce := ce) prog s' x
    simp only [Program.drawCalls, List.mem_append] at h
    rcases h with h | h
    · split at h
      · simp at h
      · next ho => exact ⟨k, by simp, _, _, _, _, ho, by simpa using h⟩
      · next ho =>
        split at h
        · exact ⟨k, by simp, _, _, _, _, ho, by simpa using h⟩
        · simp at h
    · split at h
      · next s' _ =>
        obtain ⟨k', h1, h2⟩ := hrest s' h
        exact ⟨k', List.mem_cons_of_mem _ h1, h2⟩
      · simp at h

theorem docOp_image {n tag : Nat} {k : Program.Call} {img : Img} (h : Program.docOp n k = some (some (.image tag img))) :
    ∃ i, k = .image img i := by
  cases k with
  | object op =>
    simp only [Program.docOp] at h
    split at h
    · next ho => simp only [Option.some.injEq] at h; subst h; simp [Program.objectOp] at ho
    · simp at h
  | plain c =>
    simp only [Program.docOp, Option.map_eq_some_iff] at h
    obtain ⟨_, _, _, _, h⟩ := h
    simp at h
  | image j i => simp [Program.docOp] at h; exact ⟨i, by rw [h.2]⟩
  | _ => simp [Program.docOp] at h

theorem docOp_imageOpt {n tag : Nat} {k : Program.Call} {img : Img} {tr : Option Tr} {m : Option (Img × Option Tr)}
    (h : Program.docOp n k = some (some (.imageOpt tag img tr m))) :
    ∃ i mask, k = .imageOpt img i tr mask ∧ m = mask.map fun m => (m.1, m.2.2) := by
  cases k with
  | object op =>
    simp only [Program.docOp] at h
    split at h
    · next ho => simp only [Option.some.injEq] at h; subst h; simp [Program.objectOp] at ho
    · simp at h
  | plain c =>
    simp only [Program.docOp, Option.map_eq_some_iff] at h
    obtain ⟨_, _, _, _, h⟩ := h
    simp at h
  | imageOpt j i t mask =>
    simp only [Program.docOp, Option.some.injEq, Op.imageOpt.injEq] at h
    obtain ⟨_, rfl, rfl, rfl⟩ := h
    exact ⟨i, mask, rfl, rfl⟩
  | _ => simp [Program.docOp] at h

theorem docOp_settings {n : Nat} {k : Program.Call} {op : Op} (h : Program.docOp n k = some (some op)) :
    ∀ t ∈ op.settings, t ∈ Program.settingsOf k := by
  cases k with
  | object op' =>
    simp only [Program.docOp] at h
    split at h
    · next ho => simp only [Option.some.injEq] at h; subst h; cases op' <;> simp [Program.objectOp, Op.settings] at ho ⊢
    · simp at h
  | plain c =>
    simp only [Program.docOp, Option.map_eq_some_iff] at h
    obtain ⟨_, _, _, _, rfl⟩ := h
    simp [Op.settings]
  | imageOpt j i t mask =>
    simp only [Program.docOp, Option.some.injEq] at h
    subst h
    rcases mask with _ | ⟨m1, m2, _ | m3⟩ <;> simp [Op.settings, Program.settingsOf]
  | _ => simp only [Program.docOp, Option.some.injEq] at h; try (subst h; simp [Op.settings, Program.settingsOf])

theorem used_masks (ce : Content.Env) (k : Nat) : ∀ (prog : List Program.Call) (f : Program.Effect) (n : Nat) (s : Program.St),
    ∀ u ∈ Program.used ce k f n s prog, ∀ m ∈ u.mask, ∃ img i tr mk, Program.Call.imageOpt img i tr (some mk) ∈ prog ∧ m.item = mk.2.1
  | [], f, n, s, u, hu => by simp [Program.used] at hu
  | c :: prog, f, n, s, u, hu => by
    intro m hm
    simp only [Program.used, List.mem_append] at hu
    rcases hu with hu | hu
    · split at hu
      · cases c with
        | imageOpt img i tr mask =>
          simp [Program.figuresOf] at hu
          subst hu
          simp only [Option.mem_def, Option.map_eq_some_iff] at hm
          obtain ⟨mk, rfl, rfl⟩ := hm
          exact ⟨img, i, tr, mk, by simp, rfl⟩
        | plain x => cases x <;> simp [Program.figuresOf] at hu <;> subst hu <;> simp at hm
        | _ => simp [Program.figuresOf] at hu <;> subst hu <;> simp at hm
      · simp at hu
    · split at hu
      · simp at hu
      · obtain ⟨img, i, tr, mk, h1, h2⟩ := used_masks ce k prog _ _ _ u hu m hm
        exact ⟨img, i, tr, mk, List.mem_cons_of_mem _ h1, h2⟩

/-- Where an image comes from. -/
theorem makes_call {prog : List Program.Call} {op : Op} {m : ImgInfo} {id : Nat} (hop : op ∈ Program.docOps 1 prog) (hm : Makes op m id) :
    (∃ img i a x, Program.Call.image img i ∈ prog ∧ img.id = id ∧ img.parsed = some (a, x) ∧ m = ⟨false, a, x, false⟩) ∨
    (∃ img i tr mask a x, Program.Call.imageOpt img i tr mask ∈ prog ∧ img.id = id ∧ img.parsed = some (a, x) ∧ m = ⟨false, a, x, mask.isSome⟩) ∨
    (∃ img i tr mi it t a x, Program.Call.imageOpt img i tr (some (mi, it, t)) ∈ prog ∧ mi.id = id ∧ mi.parsed = some (a, x) ∧ m = ⟨true, a, x, false⟩) := by
  obtain ⟨k, hk, n, hn⟩ := op_mem _ _ _ hop
  cases op with
  | image tag img =>
    obtain ⟨h1, a, x, h2, h3⟩ := hm
    obtain ⟨i, rfl⟩ := docOp_image hn
    exact .inl ⟨img, i, a, x, hk, h1, h2, h3⟩
  | imageOpt tag img tr mask =>
    obtain ⟨i, mask', rfl, h2⟩ := docOp_imageOpt hn
    rcases hm with ⟨h1, a, x, h3, h4⟩ | ⟨mi, t, a, x, h1, h3, h4, h5⟩
    · exact .inr (.inl ⟨img, i, tr, mask', a, x, hk, h1, h3, by rw [h4, h2]; simp⟩)
    · rw [h1] at h2
      obtain ⟨⟨m1, m2, m3⟩, rfl, e3⟩ := Option.map_eq_some_iff.1 h2.symm
      simp only [Prod.mk.injEq] at e3
      obtain ⟨rfl, rfl⟩ := e3
      exact .inr (.inr ⟨img, i, tr, m1, m2, m3, a, x, hk, h3, h4, h5⟩)
  | _ => exact hm.elim

theorem makes_prog {prog : List Program.Call} {op : Op} {m : ImgInfo} {id : Nat} (hop : op ∈ Program.docOps 1 prog) (hm : Makes op m id) :
    (m.isMask = true → Program.AsMask prog id) ∧ (m.isMask = false → Program.Drawn prog id) := by
  rcases makes_call hop hm with ⟨img, i, a, x, h1, h2, -, rfl⟩ | ⟨img, i, tr, mask, a, x, h1, h2, -, rfl⟩ | ⟨img, i, tr, mi, it, t, a, x, h1, h2, -, rfl⟩
  · exact ⟨by simp, fun _ => ⟨img, i, h2, .inl h1⟩⟩
  · exact ⟨by simp, fun _ => ⟨img, i, h2, .inr ⟨_, _, h1⟩⟩⟩
  · exact ⟨fun _ => ⟨_, _, _, _, _, _, h1, h2⟩, by simp⟩

theorem ids_of_prog {prot : Bool} {prog : List Program.Call} : ∀ id m a g, Obj.image id m a g ∈ (exec (start prot) (Program.docOps 1 prog ++ [.compile])).idents →
    (m.isMask = true → Program.AsMask prog id) ∧ (m.isMask = false → Program.Drawn prog id) := by
  intro id m a g hi
  refine image_ids (M := fun b id => (b.isMask = true → Program.AsMask prog id) ∧ (b.isMask = false → Program.Drawn prog id))
    (Program.docOps 1 prog ++ [.compile]) (start prot) (reachable_base ⟨prot, [], rfl⟩) ?_ ?_ id m a g hi
  · intro op hop m id hm
    simp only [List.mem_append, List.mem_singleton] at hop
    rcases hop with hop | rfl
    · exact makes_prog hop hm
    · simp [Makes] at hm
  · intro id m a g hm
    simp [Doc.idents, start, Obj.ident] at hm

/-- `program_figures` with the numbers of resources. -/
theorem figures_numbered {e : Objects.Env} {ce : Content.Env} {prot : Bool} {ml mt : ℚ} {prog : List Program.Call} {s : Program.St}
    {d : Doc} {c : Decoder} (h : Output e ce prot ml mt prog s d c) (wd : Paint.Widths) (picture : Nat → Nat → Prop) {cv : Canvas.Canvas}
    (hpic : ∀ i id info a g, d.objs[i]? = some (.image id info a g) → Denotes d.xobjNames (i + 1) (i + 1) → picture id (i + 1))
    (hcv : (Canvas.blank 0).calls ce (Program.drawCalls ce (Program.start prot ml mt) prog) = some cv)
    (hup : ∀ k ∈ prog, Program.Upright k) (htext : ∀ col, Program.Call.plain (.setTextColour col) ∉ prog)
    (hsharp : ∀ k ∈ prog, ∀ t ∈ Program.settingsOf k, t.sharp) (hkey : ∀ id, Program.AsMask prog id → c.key = none) :
    ∃ pages, view c (file e d) = some pages ∧ pages.length = prog.countP Program.isPage ∧
      ∀ (k : Nat) page o, pages[k]? = some (page, o) → ∃ sh exact r r', cv.sheets[k + 1]? = some sh ∧
        List.Forall₂ ContentReader.NearOp o exact ∧ Paint.run wd {} exact = some r ∧
        Paint.run wd {} o = some r' ∧ r'.marks.map ContentReader.kindOf = r.marks.map ContentReader.kindOf ∧
        sh.figs.Sublist (Canvas.figures r.marks) ∧
        ((∀ x ∈ Program.drawCalls ce (Program.start prot ml mt) prog, Canvas.Undecorated x) → Canvas.figures r.marks = sh.figs) ∧
        List.Forall₂ (Scene.Shows { decoder := c, file := file e d, page, prog, env := ce, widths := wd, picture, csName := e.csName })
          sh.figs (Program.used ce (k + 1) {} 0 (Program.start prot ml mt) prog) := by
  obtain ⟨ps, h1, h2, h3, h4⟩ := program_view h
  refine ⟨ps, h1, h2, fun k page o hk => ?_⟩
  obtain ⟨⟨-, q1⟩, n, cs, ls, r0, q2, rfl⟩ := h4 k page o hk
  have hcalls : ∀ x ∈ Program.drawCalls ce (Program.start prot ml mt) prog,
      Canvas.MaskUpright x ∧ (∀ n, x ≠ .setPage n) ∧ ∀ col, x ≠ .setTextColour col := by
    intro x hx
    obtain ⟨k, k1, d', en, n', o', k3, k2⟩ := draw_mem prog _ x hx
    have hk := hup k k1
    cases k with
    | plain y =>
      obtain rfl : y = x := by simpa [Program.contentCall] using k2
      refine ⟨?_, ?_, ?_⟩
      · cases y <;> simp [Program.docOp, Program.plainCall] at k3 <;> trivial
      · rintro n rfl; simp [Program.docOp, Program.plainCall] at k3
      · rintro col rfl; exact htext col k1
    | image img i =>
      simp only [Program.contentCall, Option.map_eq_some_iff] at k2
      obtain ⟨_, _, rfl⟩ := k2
      exact ⟨by simp [Canvas.MaskUpright], by simp, by simp⟩
    | imageOpt img i tr mask =>
      simp only [Program.contentCall, Option.map_eq_some_iff] at k2
      obtain ⟨_, _, rfl⟩ := k2
      refine ⟨?_, by simp, by simp⟩
      cases mask with
      | none => simp [Canvas.MaskUpright]
      | some m => exact fun _ => hk.1
    | setColourSpace name =>
      simp only [Program.contentCall, Option.map_eq_some_iff] at k2
      obtain ⟨_, _, rfl⟩ := k2
      exact ⟨trivial, by simp, by simp⟩
    | object op => simp [Program.contentCall] at k2
    | _ =>
      simp only [Program.contentCall, Option.some.injEq] at k2
      subst k2
      exact ⟨trivial, by simp, by simp⟩
  obtain ⟨f1, f2⟩ := figures_drawn ce wd 0 ml mt _ s.content cv (Program.steps_content prog _ s h.run) hcv (fun x hx => (hcalls x hx).1)
    (turns_allowed _ _ _ (.inr fun x hx => (hcalls x hx).2.1)) (fun x hx => (hcalls x hx).2.2)
  have hk' : k + 1 < cv.sheets.length := by
    rw [← f1, h3]
    have := List.getElem?_eq_some_iff.1 hk
    obtain ⟨hk, -⟩ := this
    omega
  have hsh := List.getElem?_eq_getElem hk'
  obtain ⟨r, r1, r2, r3⟩ := f2 (k + 1) _ hsh
  obtain ⟨r', e1, e2⟩ := Content.run_alike (Content.alike_refl _) q1 r1
  refine ⟨_, _, r, r', hsh, q1, r1, e1, e2.marks.symm, r2, r3, ?_⟩
  obtain ⟨-, new, n1, n2⟩ := Program.calls_used (W := prog) (e := ce) (k + 1) prog [] (Program.start prot ml mt) s _ cv {} 0 rfl rfl rfl
    (Program.inv_start prot ml mt) h.run hcv (by
      intro op ho t ht
      obtain ⟨k, k1, n', k2⟩ := op_mem prog _ op ho
      exact hsharp k k1 t (docOp_settings k2 t ht))
  have hfig : Program.figs cv (k + 1) = (cv.sheets[k + 1]).figs := by simp [Program.figs, hsh]
  rw [hfig, show Program.figs (Canvas.blank 0) (k + 1) = [] by simp [Program.figs, Canvas.blank], List.nil_append] at n1
  rw [n1]
  have hdd : d = exec s.doc [.compile] := by
    rw [h.doc, exec_append, show s.doc = exec (start prot) (Program.docOps 1 prog) from (Program.steps_doc prog _ s h.run).1]
  have hreach := (Program.Res.steps prog _ s (Program.res_start prot ml mt) h.run).reach
  have hgrow : Grow s.doc d := by rw [hdd]; exact grow_exec (reachable_base hreach) _
  have hext : Ext s.doc d := by rw [hdd]; exact exec_ext _ _
  have hpage : OnPage { decoder := c, file := file e d, page := objVal e d (n - 1) (.page cs ls r0), prog, env := ce, widths := wd, picture, csName := e.csName }
      e d (Program.docOps 1 prog) prot := by
    exact ⟨h.compiled, rfl, ⟨n, cs, ls, r0, q2, rfl⟩, h.md5, h.key, rfl, hpic, ⟨s, h.render⟩⟩
  have hm := used_masks ce (k + 1) prog {} 0 (Program.start prot ml mt)
  revert hm n2
  generalize Program.used ce (k + 1) {} 0 (Program.start prot ml mt) prog = us
  intro n2 hm
  clear n1
  induction n2 with
  | nil => exact .nil
  | cons hab _ ih =>
    refine .cons (hpage.shows ?_ (hab.grow hgrow hext)) (ih fun u hu => hm u (List.mem_cons_of_mem _ hu))
    intro m hmm
    obtain ⟨img, i, tr, ⟨mk, mi, mt'⟩, g1, g2⟩ := hm _ (by simp) m hmm
    refine ⟨hkey _ ⟨img, i, tr, mk, mi, mt', g1, rfl⟩, ?_⟩
    rw [g2]
    exact (hup _ g1).2

/-- `program_figures` for any sense in which objects hold pictures. -/
theorem figures_with {e : Objects.Env} {ce : Content.Env} {prot : Bool} {ml mt : ℚ} {prog : List Program.Call} {s : Program.St}
    {d : Doc} {c : Decoder} (h : Output e ce prot ml mt prog s d c) (wd : Paint.Widths) (picture : Nat → Nat → Prop) {cv : Canvas.Canvas}
    (hpic : ∀ i id info a g, d.objs[i]? = some (.image id info a g) → Denotes d.xobjNames (i + 1) (i + 1) → picture id (i + 1))
    (hcv : (Canvas.blank 0).calls ce (Program.requests ce (Program.start prot ml mt) prog) = some cv)
    (hup : ∀ k ∈ prog, Program.Upright k) (htext : ∀ col, Program.Call.plain (.setTextColour col) ∉ prog)
    (hsharp : ∀ k ∈ prog, ∀ t ∈ Program.settingsOf k, t.sharp) (hkey : ∀ id, Program.AsMask prog id → c.key = none) :
    ∃ pages, view c (file e d) = some pages ∧ pages.length = prog.countP Program.isPage ∧
      ∀ (k : Nat) page o, pages[k]? = some (page, o) → ∃ sh figs exact r r', cv.sheets[k + 1]? = some sh ∧
        List.Forall₂ ContentReader.NearOp o exact ∧ Paint.run wd {} exact = some r ∧
        Paint.run wd {} o = some r' ∧ r'.marks.map ContentReader.kindOf = r.marks.map ContentReader.kindOf ∧
        figs.Sublist (Canvas.figures r.marks) ∧
        ((∀ x ∈ Program.requests ce (Program.start prot ml mt) prog, Canvas.Undecorated x) → Canvas.figures r.marks = figs) ∧
        figs.map Program.bare = sh.figs.map Program.bare ∧
        List.Forall₂ (Scene.Shows { decoder := c, file := file e d, page, prog, env := ce, widths := wd, picture, csName := e.csName })
          figs (Program.used ce (k + 1) {} 0 (Program.start prot ml mt) prog) := by
  have hr : Reachable (Program.start prot ml mt).doc := ⟨prot, [], rfl⟩
  have hb := Program.requests_canvas hr h.run (Canvas.blank 0)
  rw [hcv, Option.map_some, Option.map_eq_some_iff] at hb
  obtain ⟨cv0, h0, hb⟩ := hb
  obtain ⟨pages, p1, p2, p3⟩ := figures_numbered h wd picture hpic h0 hup htext hsharp hkey
  refine ⟨pages, p1, p2, fun k page o hk => ?_⟩
  obtain ⟨sh, exact', r, r', q1, q2, q3, q4, q5, q6, q7, q8⟩ := p3 k page o hk
  have hs : (cv0.sheets[k + 1]?).map Program.bareSheet = (cv.sheets[k + 1]?).map Program.bareSheet := by
    rw [← List.getElem?_map, ← List.getElem?_map]
    have := congrArg Canvas.Canvas.sheets hb
    exact congrArg (fun l : List Canvas.Sheet => l[k + 1]?) this
  rw [q1, Option.map_some] at hs
  obtain ⟨sh2, s1, s2⟩ := Option.map_eq_some_iff.1 hs.symm
  refine ⟨sh2, sh.figs, exact', r, r', s1, q2, q3, q4, q5, q6, fun hu => q7 (Program.requests_undecorated hr h.run hu), ?_, q8⟩
  exact (congrArg Canvas.Sheet.figs s2).symm

/-- **C60** On every page a viewer finds, it paints the figures the calls ask for (`Program.requests` on the canvas of C48: every path and
image, in order, with the coordinates, line style, colours, rotation and clipping given to the calls; `exact` is what it reads up to
the rounding of numbers), and each figure uses, in the file, what its call asked for:

* an image paints the object with the data of the picture given;
* a figure is painted through a graphics state with exactly the alpha and blend mode of its call (its own or the ones in
  effect), or none if it is opaque;
* a masked image is masked with the luminosity of a group that paints the mask's picture where the mask's options say;
* a path is stroked in the separation colour space with the name selected, or in a plain colour if none is selected.

For every program whose masked images are upright, whose text has no colour of its own, and whose transparency settings are
distinguished by three decimals (C36 `opaque_collides_fails`), and, if masks are used, an unencrypted document (groups are written
unencrypted, C18). -/
theorem program_figures {e : Objects.Env} {ce : Content.Env} {prot : Bool} {ml mt : ℚ} {prog : List Program.Call} {s : Program.St}
    {d : Doc} {c : Decoder} (h : Output e ce prot ml mt prog s d c) (wd : Paint.Widths) (picture : Nat → Picture) {cv : Canvas.Canvas}
    (hpic : ∀ i id info a g, d.objs[i]? = some (.image id info a g) → (e.look i).data = (picture id).data ∧ (e.look i).smask = (picture id).alpha)
    (hcv : (Canvas.blank 0).calls ce (Program.requests ce (Program.start prot ml mt) prog) = some cv)
    (hup : ∀ k ∈ prog, Program.Upright k) (htext : ∀ col, Program.Call.plain (.setTextColour col) ∉ prog)
    (hsharp : ∀ k ∈ prog, ∀ t ∈ Program.settingsOf k, t.sharp) (hkey : ∀ id, Program.AsMask prog id → c.key = none) :
    ∃ pages, view c (file e d) = some pages ∧ pages.length = prog.countP Program.isPage ∧
      ∀ (k : Nat) page o, pages[k]? = some (page, o) → ∃ sh figs exact r r', cv.sheets[k + 1]? = some sh ∧
        List.Forall₂ ContentReader.NearOp o exact ∧ Paint.run wd {} exact = some r ∧
        Paint.run wd {} o = some r' ∧ r'.marks.map ContentReader.kindOf = r.marks.map ContentReader.kindOf ∧
        figs.Sublist (Canvas.figures r.marks) ∧
        ((∀ x ∈ Program.requests ce (Program.start prot ml mt) prog, Canvas.Undecorated x) → Canvas.figures r.marks = figs) ∧
        figs.map Program.bare = sh.figs.map Program.bare ∧
        List.Forall₂ (Scene.Shows { decoder := c, file := file e d, page, prog, env := ce, widths := wd, csName := e.csName, picture := HasData c (file e d) prog picture })
          figs (Program.used ce (k + 1) {} 0 (Program.start prot ml mt) prog) := by
  refine figures_with h wd _ (fun i id info a g ho hden => ?_) hcv hup htext hsharp hkey
  obtain ⟨p1, p2⟩ := hpic i _ _ _ _ ho
  have hobj : d.objAt (i + 1) = some (.image id info a g) := by simpa [Doc.objAt] using ho
  have hdata := (image_in_file h.compiled c h.md5 h.key (i + 1) (i + 1) _ _ _ _ hden hobj).1
  obtain ⟨m1, m2⟩ : (info.isMask = true → Program.AsMask prog id) ∧ (info.isMask = false → Program.Drawn prog id) := by
    refine ids_of_prog (prot := prot) id info none none ?_
    rw [← h.doc]
    have := List.mem_of_getElem? (ident_at ho)
    simpa [Obj.ident] using this
  rw [Nat.add_sub_cancel, p1, p2] at hdata
  refine ⟨_, hdata, ?_, ?_, ?_⟩
  · cases info.isMask <;> simp
  · intro hn
    cases hm : info.isMask with
    | false => rfl
    | true => exact absurd (m1 hm) hn
  · intro hn
    cases hm : info.isMask with
    | true => rfl
    | false => exact absurd (m2 hm) hn

end Verif.Props
