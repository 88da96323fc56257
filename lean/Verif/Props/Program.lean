import Verif.Lemmas.Program.Names
import Verif.Props.Canvas
import Verif.Props.FileGraph
import Verif.Props.PageBytes
import Verif.Spec.Viewer
/- C58: from a program's calls to what a viewer finds in the file. -/
set_option maxRecDepth 10000
namespace Verif.Props
open Doc Objects ObjectValue PdfObject FileReader Viewer

/-- The file of a program: `s` is the state after its calls, and the environment prints the content streams of the pages from
what the calls drew. -/
structure Output (e : Objects.Env) (ce : Content.Env) (prot : Bool) (ml mt : ℚ) (prog : List Program.Call) (s : Program.St)
    (d : Doc) (c : Decoder) : Prop where
  run : Program.steps ce (Program.start prot ml mt) prog = some s
  render : e.render = Program.render ce prog s
  doc : d = exec (start prot) (Program.docOps 1 prog ++ [.compile])
  sound : Sound e
  names : PlainNames e
  info : ∀ i ∈ e.info, InfoOK i
  size : (file e d).length < 10 ^ 10
  /-- the viewer knows the key and how to decompress -/
  md5 : c.md5 = e.md5
  key : c.key = e.key
  inflate : ∀ z, e.deflate = some z → ∀ b, c.inflate (z b) = some b
  glyphs : ∀ n, Content.TwoByte (ce.fonts n)
  templates : ∀ sx sy tx ty name, Program.Call.plain (.template sx sy tx ty name) ∈ prog → ContentReader.TemplateName name

theorem Output.compiled {e : Objects.Env} {ce : Content.Env} {prot : Bool} {ml mt : ℚ} {prog : List Program.Call} {s : Program.St}
    {d : Doc} {c : Decoder} (h : Output e ce prot ml mt prog s d c) : Compiled e prot (Program.docOps 1 prog) d :=
  ⟨h.doc, (Program.docOps_plain prog 1).1, h.sound, h.names, h.size⟩

/-- The pages the calls drew on. -/
theorem content_templates {ce : Content.Env} : ∀ (prog : List Program.Call) (s : Program.St),
    (∀ sx sy tx ty name, Program.Call.plain (.template sx sy tx ty name) ∈ prog → ContentReader.TemplateName name) →
    TemplatesAre ContentReader.TemplateName (Program.drawCalls ce s prog)
  | [], s, _ => by simp [TemplatesAre, Program.drawCalls]
  | k :: prog, s, h => by
    have one : ∀ d en x, Program.contentCall d en k = some x → ∀ sx sy tx ty name, x = .template sx sy tx ty name →
        ContentReader.TemplateName name := by
      intro d en x hx sx sy tx ty name hh
      subst hh
      cases k <;> simp only [Program.contentCall, Option.some.injEq, Option.map_eq_some_iff] at hx
      case plain y => subst hx; exact h sx sy tx ty name (by simp)
      all_goals first | (exact absurd hx (by simp)) | (obtain ⟨_, _, hx⟩ := hx; exact absurd hx (by simp))
    have hrest := fun s' => content_templates (ce := ce) prog s' fun sx sy tx ty name hm => h _ _ _ _ _ (List.mem_cons_of_mem _ hm)
    intro x hx
    simp only [Program.drawCalls, List.mem_append] at hx
    rcases hx with hx | hx
    · split at hx
      · simp at hx
      · exact one _ _ x (by simpa using hx)
      · split at hx
        · exact one _ _ x (by simpa using hx)
        · simp at hx
    · split at hx
      · next s' _ => exact hrest s' x hx
      · simp at hx

theorem sequence_get {α β : Type} {f : α → Option β} : ∀ {l : List α} {r : List β}, sequence (l.map f) = some r →
    r.length = l.length ∧ ∀ (k : Nat) x, l[k]? = some x → ∃ y, r[k]? = some y ∧ f x = some y
  | [], r, h => by simp [sequence] at h; subst h; simp
  | x :: l, r, h => by
    simp only [List.map_cons, sequence, Option.bind_eq_some_iff, Option.map_eq_some_iff] at h
    obtain ⟨y, h1, r', h2, rfl⟩ := h
    obtain ⟨q1, q2⟩ := sequence_get h2
    refine ⟨by simp [q1], fun k z hz => ?_⟩
    cases k with
    | zero => simp at hz; subst hz; exact ⟨y, rfl, h1⟩
    | succ k => simp at hz; simpa using q2 k z hz

/-- The bytes of page `k` are those of the items drawn on it. -/
theorem program_contents {e : Objects.Env} {ce : Content.Env} {prot : Bool} {ml mt : ℚ} {prog : List Program.Call} {s : Program.St}
    {d : Doc} {c : Decoder} (h : Output e ce prot ml mt prog s d c) :
    ∃ bytes, pageContents c (file e d) = some bytes ∧ bytes.length = prog.countP Program.isPage ∧
      s.content.pages.length = bytes.length + 1 ∧
      ∀ (k : Nat) b, bytes[k]? = some b → b = (Content.writeItems ce (s.content.pages.getD (k + 1) [])).1 := by
  have hr := h.render
  obtain ⟨h1, h2⟩ := Program.docOps_plain prog 1
  have hsize := h.size
  rw [h.doc] at hsize ⊢
  obtain ⟨es, q1, q2⟩ := file_shows_what_was_drawn e h.sound h.names h.info prot (Program.docOps 1 prog) h1 h2 hsize c h.md5 h.key h.inflate
    (by rw [hr]; rfl)
  have hp := Program.Pages.steps prog [] _ s [] (Program.pages_start prot ml mt) h.run
  change Program.Pages prog s (drawn [] ((Program.docOps 1 prog).zip (outcomes (start prot) (Program.docOps 1 prog)))) at hp
  rw [← q1] at hp
  have hl : s.content.pages.length = es.length + 1 := by simpa using hp.len
  have hn : prog.countP Program.isPage = es.length := by simpa using hp.count
  refine ⟨_, q2, by simp [hn], by simp [hl], fun k b hb => ?_⟩
  rw [List.getElem?_map] at hb
  obtain ⟨l, e1, rfl⟩ := Option.map_eq_some_iff.1 hb
  have ht := hp.tags k (l.map (·.tag)) (by rw [List.getElem?_map, e1]; rfl)
  rw [hr]
  cases l with
  | nil =>
    rw [hp.empty k (by rw [List.getElem?_map, e1]; rfl)]
    rfl
  | cons en es' =>
    obtain ⟨a, b, _⟩ := ht en.tag (by simp)
    simp only [Program.render, if_neg (Nat.pos_iff_ne_zero.1 b), a]

theorem program_operators {e : Objects.Env} {ce : Content.Env} {prot : Bool} {ml mt : ℚ} {prog : List Program.Call} {s : Program.St}
    {d : Doc} {c : Decoder} (h : Output e ce prot ml mt prog s d c) (n : Nat) :
    ∃ o, ContentReader.operators (Content.writeItems ce (s.content.pages.getD n [])).1 = some o ∧
      List.Forall₂ ContentReader.NearOp o (Content.pageOps ce (s.content.pages.getD n [])) :=
  page_bytes_read ce 0 ml mt _ s.content (Program.steps_content prog _ s h.run) h.glyphs (content_templates prog _ h.templates) n

/-- What the viewer gets, page by page. -/
theorem program_view {e : Objects.Env} {ce : Content.Env} {prot : Bool} {ml mt : ℚ} {prog : List Program.Call} {s : Program.St}
    {d : Doc} {c : Decoder} (h : Output e ce prot ml mt prog s d c) :
    ∃ pages, view c (file e d) = some pages ∧ pages.length = prog.countP Program.isPage ∧ s.content.pages.length = pages.length + 1 ∧
      ∀ (k : Nat) page o, pages[k]? = some (page, o) →
        (ContentReader.operators (Content.writeItems ce (s.content.pages.getD (k + 1) [])).1 = some o ∧
         List.Forall₂ ContentReader.NearOp o (Content.pageOps ce (s.content.pages.getD (k + 1) []))) ∧
        ∃ n cs ls r, d.objAt n = some (.page cs ls r) ∧ page = objVal e d (n - 1) (.page cs ls r) := by
  obtain ⟨bytes, b1, b2, b3, b4⟩ := program_contents h
  have hp := pages_in_file e h.sound h.names h.info prot (Program.docOps 1 prog) (Program.docOps_plain prog 1).1 (h.doc ▸ h.size)
  rw [← h.doc] at hp
  obtain ⟨p1, p2⟩ := hp
  generalize hps : (pageIds (start prot) (Program.docOps 1 prog)).map (fun n => objVal e d (n - 1) ((d.objAt n).getD .imported)) = ps at p1
  unfold pageContents at b1
  rw [p1] at b1
  simp only [Option.bind_some] at b1
  obtain ⟨l1, l2⟩ := sequence_get b1
  have hcont : ∀ p ∈ ps, contents c (file e d) p = some ((contents c (file e d) p).getD []) := by
    intro p hp
    obtain ⟨k, hk⟩ := List.mem_iff_getElem?.1 hp
    obtain ⟨y, _, hy⟩ := l2 k p hk
    rw [hy]; rfl
  have hops : ∀ p ∈ ps, ∃ o, ContentReader.operators ((contents c (file e d) p).getD []) = some o := by
    intro p hp
    obtain ⟨k, hk⟩ := List.mem_iff_getElem?.1 hp
    obtain ⟨y, hy, hy'⟩ := l2 k p hk
    rw [hy', Option.getD_some, b4 k y hy]
    obtain ⟨o, ho, _⟩ := program_operators h (k + 1)
    exact ⟨o, ho⟩
  refine ⟨ps.map fun p => (p, (ContentReader.operators ((contents c (file e d) p).getD [])).getD []), ?_, by simp [← b2, l1], by simp [b3, l1], ?_⟩
  · unfold view pagesWithContent
    rw [p1]
    simp only [Option.bind_some]
    rw [sequence_map ps _ (fun p => (p, (contents c (file e d) p).getD [])) (fun p hp => by rw [hcont p hp]; rfl)]
    simp only [Option.bind_some, List.map_map]
    refine sequence_map ps _ _ (fun p hp => ?_)
    obtain ⟨o, ho⟩ := hops p hp
    simp [ho]
  · intro k page o hk
    rw [List.getElem?_map] at hk
    obtain ⟨p, e1, e2⟩ := Option.map_eq_some_iff.1 hk
    simp only [Prod.mk.injEq] at e2
    obtain ⟨rfl, rfl⟩ := e2
    obtain ⟨y, hy, hy'⟩ := l2 k p e1
    obtain ⟨o, ho, ho'⟩ := program_operators h (k + 1)
    refine ⟨?_, ?_⟩
    · rw [hy', Option.getD_some, b4 k y hy, ho]
      exact ⟨rfl, ho'⟩
    · rw [← hps, List.getElem?_map] at e1
      obtain ⟨n, e2, rfl⟩ := Option.map_eq_some_iff.1 e1
      obtain ⟨cs, ls, r, hn⟩ := p2 n (List.mem_of_getElem? e2)
      exact ⟨n, cs, ls, r, hn, by rw [hn]; rfl⟩

/-- **C58** A viewer that opens the file of a program finds a page for every AddPage call, and on each page the operators of the
calls made while it was the current page, in order (numbers differ by the rounding of `NearOp`). -/
theorem program_pages {e : Objects.Env} {ce : Content.Env} {prot : Bool} {ml mt : ℚ} {prog : List Program.Call} {s : Program.St}
    {d : Doc} {c : Decoder} (h : Output e ce prot ml mt prog s d c) :
    ∃ pages, view c (file e d) = some pages ∧ pages.length = prog.countP Program.isPage ∧ s.content.pages.length = pages.length + 1 ∧
      ∀ (k : Nat) page o, pages[k]? = some (page, o) →
        List.Forall₂ ContentReader.NearOp o (Content.pageOps ce (s.content.pages.getD (k + 1) [])) := by
  obtain ⟨ps, h1, h2, h3, h4⟩ := program_view h
  exact ⟨ps, h1, h2, h3, fun k page o hk => (h4 k page o hk).1.2⟩

/-! ### Resources -/

def OpNamed (d : Doc) : Paint.Op → Prop
  | .Tf n _ => Program.FontNamed d n
  | .gs n => Program.GsNamed d n
  | .image n => Program.ImageNamed d n
  | .strokeColour (.named n) | .fillColour (.named n) => Program.SpaceNamed d n
  | _ => True

theorem gs_named {d : Doc} {l : List Nat} (h : ∀ n ∈ l, Program.GsNamed d n) : ∀ o ∈ l.map Paint.Op.gs, OpNamed d o := by
  intro o ho
  obtain ⟨n, hn, rfl⟩ := List.mem_map.1 ho
  exact h n hn

theorem path_named {d : Doc} (h : ℚ) (pts : List (ℚ × ℚ)) : ∀ o ∈ Content.pathOps h pts, OpNamed d o := by
  intro o ho
  cases pts with
  | nil => simp [Content.pathOps] at ho
  | cons p rest =>
    simp only [Content.pathOps, List.mem_cons, List.mem_map] at ho
    rcases ho with rfl | ⟨q, _, rfl⟩ <;> trivial

theorem border_named {d : Doc} (t : Content.TextItem) : ∀ o ∈ Content.borderOps t, OpNamed d o := by
  have hl : ∀ (b : Bool) (x1 y1 x2 y2 : ℚ), ∀ o ∈ (if b then Content.borderLine x1 y1 x2 y2 else []), OpNamed d o := by
    intro b x1 y1 x2 y2 o ho
    cases b with
    | false => simp at ho
    | true =>
      simp only [Content.borderLine, if_true, List.mem_cons, List.not_mem_nil, or_false] at ho
      rcases ho with rfl | rfl | rfl <;> trivial
  intro o ho
  simp only [Content.borderOps, List.mem_append] at ho
  rcases ho with ((ho | ho) | ho) | ho <;> exact hl _ _ _ _ _ o ho

theorem colour_named (d : Doc) (t : Content.TextColour) : OpNamed d (.fillColour t.colour) := by cases t <;> trivial

theorem text_named {ce : Content.Env} {d : Doc} {t : Content.TextItem} (h : Program.ItemNamed d (.text t)) :
    ∀ o ∈ Content.textOps ce t, OpNamed d o := by
  intro o ho
  simp only [Content.textOps, List.mem_append] at ho
  rcases ho with (((((((ho | ho) | ho) | ho) | ho) | ho) | ho) | ho)
  · split at ho <;> simp at ho; subst ho; trivial
  · exact gs_named h.2 o ho
  · simp only [List.mem_cons, List.not_mem_nil, or_false] at ho
    rcases ho with rfl | rfl | rfl | rfl <;> first | trivial | exact h.1
  · unfold Content.colourOps at ho
    split at ho
    · split at ho <;> simp at ho
      subst ho; exact colour_named d _
    · simp at ho
  · simp only [List.mem_cons, List.not_mem_nil, or_false] at ho
    rcases ho with rfl | rfl <;> trivial
  · split at ho
    · simp only [Content.underlineOps, List.mem_cons, List.not_mem_nil, or_false] at ho
      rcases ho with rfl | rfl <;> trivial
    · simp at ho
  · exact border_named t o ho
  · split at ho <;> simp at ho; subst ho; trivial

theorem rotate_named {ce : Content.Env} {d : Doc} (x y a h : ℚ) : ∀ o ∈ Content.rotateOps ce x y a h, OpNamed d o := by
  intro o ho
  simp only [Content.rotateOps, List.mem_cons, List.not_mem_nil, or_false] at ho
  rcases ho with rfl | rfl <;> trivial

theorem inner_named {ce : Content.Env} {d : Doc} {i : Content.ImageItem} (h : Program.ItemNamed d (.image i)) :
    ∀ o ∈ Content.imageInner ce i, OpNamed d o := by
  intro o ho
  simp only [Content.imageInner, List.mem_append] at ho
  rcases ho with (ho | (ho | (ho | (ho | ((ho | (ho | ho)) | ho))))) | ho
  · simp at ho; subst ho; trivial
  · exact gs_named h.2 o ho
  · split at ho <;> simp at ho; subst ho; trivial
  · split at ho
    · simp only [List.mem_cons, List.not_mem_nil, or_false] at ho
      rcases ho with rfl | rfl | rfl <;> trivial
    · simp at ho
  · simp at ho; subst ho; trivial
  · split at ho
    · exact rotate_named _ _ _ _ o ho
    · simp at ho
  · simp only [List.mem_cons, List.not_mem_nil, or_false] at ho
    rcases ho with rfl | rfl
    · trivial
    · exact h.1
  · simp at ho; subst ho; trivial
  · simp at ho; subst ho; trivial

theorem ops_named {ce : Content.Env} {d : Doc} {i : Content.Item} (h : Program.ItemNamed d i) : ∀ o ∈ Content.ops ce i, OpNamed d o := by
  intro o ho
  cases i with
  | text t => exact text_named h o ho
  | image i =>
    simp only [Content.ops, Content.imageOps] at ho
    split at ho
    · exact inner_named h o ho
    · simp only [List.mem_append] at ho
      rcases ho with (ho | (ho | ho)) | ho
      · simp at ho; subst ho; trivial
      · exact rotate_named _ _ _ _ o ho
      · exact inner_named h o ho
      · simp at ho; subst ho; trivial
  | colourSpace n => simp only [Content.ops, List.mem_singleton] at ho; subst ho; exact h
  | line a x1 y1 x2 y2 ext =>
    simp only [Content.ops, List.mem_append, List.mem_cons, List.not_mem_nil, or_false] at ho
    rcases ho with (rfl | ho) | rfl | rfl | rfl | rfl <;> first | trivial | exact gs_named h o ho
  | rectangle a x y w ht st ext =>
    simp only [Content.ops, List.mem_append, List.mem_cons, List.not_mem_nil, or_false] at ho
    rcases ho with (rfl | ho) | rfl | rfl | rfl <;> first | trivial | exact gs_named h o ho
  | polygon a pts st ext =>
    simp only [Content.ops, List.mem_append, List.mem_cons, List.not_mem_nil, or_false] at ho
    rcases ho with ((rfl | ho) | ho) | rfl | rfl <;> first | trivial | exact gs_named h o ho | exact path_named _ _ o ho
  | clipPolygon a pts =>
    simp only [Content.ops, List.mem_append, List.mem_cons, List.not_mem_nil, or_false] at ho
    rcases ho with ho | rfl | rfl | rfl <;> first | trivial | exact path_named _ _ o ho
  | rotate a b x y =>
    simp only [Content.ops, List.mem_cons] at ho
    rcases ho with rfl | ho
    · trivial
    · exact rotate_named _ _ _ _ o ho
  | gray st v => cases st <;> (simp [Content.ops] at ho; subst ho; trivial)
  | rgb st r g b => cases st <;> (simp [Content.ops] at ho; subst ho; trivial)
  | cmyk st c m y k => cases st <;> (simp [Content.ops] at ho; subst ho; trivial)
  | lineType a b => cases a <;> cases b <;> (simp [Content.ops] at ho; subst ho; trivial)
  | _ =>
    simp only [Content.ops, List.mem_cons, List.not_mem_nil, or_false] at ho
    first
    | (subst ho; trivial)
    | (rcases ho with rfl | rfl | rfl <;> trivial)
    | (rcases ho with rfl | rfl | rfl | rfl | rfl | rfl <;> trivial)
    | (rcases ho with rfl | rfl | rfl | rfl | rfl | rfl | rfl | rfl | rfl | rfl | rfl <;> trivial)

/-- Rounding keeps names. -/
theorem near_named {d : Doc} {a b : Paint.Op} (h : ContentReader.NearOp a b) (hb : OpNamed d b) : OpNamed d a := by
  have col : ∀ x y : Paint.Colour, ContentReader.NearColour x y → ∀ n, x = .named n → y = .named n := by
    intro x y hxy n hn
    subst hn
    cases y <;> simp [ContentReader.NearColour] at hxy ⊢
    exact hxy.symm
  by_cases he : a = b
  · rw [he]; exact hb
  · cases a <;> try trivial
    all_goals cases b <;> simp only [ContentReader.NearOp] at h <;> first | (exact absurd h he) | skip
    · next x y =>
      have := col x y h
      cases x <;> try trivial
      next n => rw [this n rfl] at hb; exact hb
    · next x y =>
      have := col x y h
      cases x <;> try trivial
      next n => rw [this n rfl] at hb; exact hb
    · obtain ⟨rfl, _⟩ := h; exact hb

end Verif.Props
