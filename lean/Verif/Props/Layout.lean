import Verif.Lemmas.Layout.Run
/- C69: wrapped text, tables, headers and footers in the file. -/
set_option maxRecDepth 10000
namespace Verif.Props
open Doc Objects ObjectValue PdfObject FileReader Viewer Typeset CmapSpec FontFile
open Layout (Has Block Written WritesAll)

/-- The file of a program with wrapped text, tables, headers and footers, given with its font files: `s` is the state after its
calls.  Everything is required of what the program has in it, not of the calls it leads to. -/
structure LaidOut (e : Objects.Env) (base : Content.Env) (prot : Bool) (ml mt : ℚ) (n : Nat) (prog : List Layout.Call) (s : Layout.St)
    (d : Doc) (c : Decoder) : Prop where
  run : Layout.steps base n (Layout.start prot ml mt) prog = some s
  render : e.render = Program.render (s.log.s.env base) s.log.drawn s.log.s.prog
  doc : d = exec s.log.s.prog.doc [.compile]
  fonts : ∀ i l, s.log.s.fonts i = some l → ∃ b, l.subset = .ok b ∧ b.length < 2 ^ 32 ∧ c.inflate (e.fontFile i).1 = some b ∧
    (e.fontFile i).2 = b.length ∧ e.widths i = l.widths ∧ e.cmap i = TextRun.toUnicode l.map ∧ e.desc i = l.desc
  /-- text is valid Unicode -/
  texts : ∀ b, Has prog b → ∀ t ∈ b.texts, ∀ r ∈ t, IsScalar r
  subst : ∀ f st face, Has prog (.basic (.addFont f st face)) → ∀ r, IsScalar (face.subst r)
  faces : ∀ f st face, Has prog (.basic (.addFont f st face)) → accepted face = true → GoodFace face ∧ noUnderline st = st
  templates : ∀ sx sy tx ty name, Has prog (.basic (.other (.plain (.template sx sy tx ty name)))) → ContentReader.TemplateName name
  /-- no font is without a number -/
  base : ∀ n, Content.TwoByte (base.fonts n)
  sound : Sound e
  names : PlainNames e
  info : ∀ i ∈ e.info, InfoOK i
  size : (file e d).length < 10 ^ 10
  /-- the viewer knows the key and how to decompress -/
  md5 : c.md5 = e.md5
  key : c.key = e.key
  inflate : ∀ z, e.deflate = some z → ∀ b, c.inflate (z b) = some b

theorem compose {α β γ : Type} {R : α → β → Prop} {S : β → γ → Prop} {T : α → γ → Prop} (h : ∀ a b c, R a b → S b c → T a c) {x : List α} {y : List β}
    {z : List γ} (h1 : List.Forall₂ R x y) (h2 : List.Forall₂ S y z) : List.Forall₂ T x z := by
  induction h1 generalizing z with
  | nil => cases h2; exact .nil
  | cons ha _ ih => cases h2 with | cons hb h2 => exact .cons (h _ _ _ ha hb) (ih h2)

section
variable {e : Objects.Env} {base : Content.Env} {prot : Bool} {ml mt : ℚ} {n : Nat} {prog : List Layout.Call} {s : Layout.St} {d : Doc} {c : Decoder}

/-- The calls a program leads to, and a plain program that writes the same. -/
theorem LaidOut.plain (h : LaidOut e base prot ml mt n prog s d c) : ∃ plain,
    Printed e base prot ml mt s.log.calls s.log.s s.log.drawn d c ∧ Written (fun _ => []) (fun _ => []) 0 prog plain ∧
      Layout.Rel ([], none) s.log.calls plain ∧ s.log.calls.countP startsPage = prog.countP Layout.isPage := by
  -- with a harmless block, so that there is one
  have hP : ∀ b, (Has prog b ∨ b = .basic (.other (.plain (.br 0)))) → Layout.Fine b := by
    rintro b (hb | rfl)
    · exact ⟨h.texts b hb, fun f st face e => h.subst f st face (e ▸ hb), fun f st face e => h.faces f st face (e ▸ hb)⟩
    · exact ⟨by simp [Block.texts], (fun _ _ _ e => by cases e), (fun _ _ _ e => by cases e)⟩
  obtain ⟨cs, ps, h1, h2, h3, h4, h5⟩ := Layout.steps_made hP ⟨_, .inr rfl⟩ prog (s := Layout.start prot ml mt)
    (Layout.reached_start (base := base)) (by simp [Layout.start]) (by simp [Layout.start]) (fun b hb => .inl hb) h.run
  have hr := (Layout.reached_start (base := base) (prot := prot) (ml := ml) (mt := mt)).made hP h1 h2
  have hc : s.log.calls = cs := by rw [h1.1]; rfl
  rw [← hc] at h2 h4 h5
  refine ⟨ps, ⟨hr.run, h.render, h.doc, h.fonts, hr.ok, hr.faces, ?_, h.base, h.sound, h.names, h.info, h.size, h.md5, h.key, h.inflate⟩, h3, h4, h5⟩
  intro sx sy tx ty name hm
  rcases h2 _ hm with ⟨b, hb, hmade⟩ | ⟨_, hmade⟩
  · rcases hmade with hmade | ⟨_, _, _, hmade⟩ | ⟨rfl, -⟩
    · exact hmade.1.elim
    · cases hmade
    · rcases hb with hb | hb
      · exact h.templates sx sy tx ty name hb
      · cases hb
  · cases hmade

/-- **C69** Wrapped text, tables, headers and footers are in the file with all their text.  On every page a viewer meets one code for
each character that the program writes there, and no other - of MultiCell a prefix of the text, all of it if IsFitMultiCell says that
it fits; of MultiCellWithOption the text without newlines, without the characters its lines are broken at, with the separators; of
DrawTable the header, the rows and the blank rows; on a new page first what the header and the footer function write, called with the
number of the page - in order, each drawn as the glyph that the caller's font gives the character. -/
theorem layout_in_file (h : LaidOut e base prot ml mt n prog s d c) :
    ∃ plain pages, Written (fun _ => []) (fun _ => []) 0 prog plain ∧ view c (file e d) = some pages ∧
      pages.length = prog.countP Layout.isPage ∧
      ∀ (k : Nat) page o, pages[k]? = some (page, o) →
        List.Forall₂ (fun p w => ∃ g, Stands w.face w.char g ∧ DrawsAs c (file e d) page p w.face.file g) (shown none [] o)
          (wishes (k + 1) 0 [] none plain) := by
  obtain ⟨plain, h1, h2, h3, h4⟩ := h.plain
  obtain ⟨pages, p1, p2, p3⟩ := text_in_callers_fonts h1
  refine ⟨plain, pages, h2, p1, p2.trans h4, fun k page o hk => ?_⟩
  have hw := h3.wishes (k + 1) 0
  have := p3 k page o hk
  exact compose (fun p x w ⟨g, g1, g2⟩ ⟨e1, e2⟩ => ⟨g, e2 g g1, by rw [← e1]; exact g2⟩) this hw

end

/-! ### What the specification says -/

/-- **C69** With the default options no character but newlines is lost, and none is added: what MultiCellWithOption writes is the
text without its newlines. -/
theorem default_keeps_text {r : Units.Rect} {t : List Nat} {opt : Content.CellOption} {tr : Option Doc.Tr} {p : List Typeset.Call}
    (h : Layout.Writes (.multiCellOpt r t opt {} tr) p) : p = [.text (t.filter fun c => decide (c ≠ 10))] := by
  cases h with
  | multiCellOpt _ _ w _ _ _ hk => rw [hk.plain]

theorem writes_no_page {b : Block} {p : List Typeset.Call} (h : Layout.Writes b p) (hb : ∀ c, b = .basic c → startsPage c = false) :
    p.countP startsPage = 0 := by
  cases h with
  | basic c => simp [hb c rfl]
  | table t ps hps =>
    rw [List.countP_eq_zero]
    intro c hc
    obtain ⟨q, hq, hc⟩ := List.mem_flatten.1 hc
    obtain ⟨i, hi, rfl⟩ := List.getElem_of_mem hq
    obtain ⟨w, -, e⟩ := (List.forall₂_iff_get.1 hps).2 i (by rw [(List.forall₂_iff_get.1 hps).1]; exact hi) hi
    simp only [List.get_eq_getElem] at e
    rw [e] at hc
    unfold Layout.cellFont at hc
    split at hc
    · simp only [List.nil_append, List.mem_singleton] at hc
      rw [hc]; exact Bool.false_ne_true
    · simp only [List.cons_append, List.nil_append, List.mem_cons, List.not_mem_nil, or_false] at hc
      rcases hc with rfl | rfl <;> exact Bool.false_ne_true
  | _ => rfl

theorem writesAll_no_page {bs : List Block} {p : List Typeset.Call} (h : WritesAll bs p) (hb : ∀ c, Block.basic c ∈ bs → startsPage c = false) :
    p.countP startsPage = 0 := by
  obtain ⟨ps, h1, rfl⟩ := h
  induction h1 with
  | nil => rfl
  | cons hw _ ih =>
    rw [List.flatten_cons, List.countP_append, writes_no_page hw (fun c e => hb c (by simp [e])), ih (fun c hc => hb c (by simp [hc]))]

/-- **C69** Every page has the header and the footer: as long as no other function is given, what is written on page `k` begins with
what the functions write for the number `k`. -/
theorem header_on_every_page {hd ft : Nat → List Block} {n : Nat} {prog : List Layout.Call} {plain : List Typeset.Call}
    (h : Written hd ft n prog plain) (hh : ∀ f, Layout.Call.addHeader f ∉ prog) (hf : ∀ f, Layout.Call.addFooter f ∉ prog)
    (hb : ∀ c, .block (.basic c) ∈ prog ∨ (∃ k, .basic c ∈ hd k ∨ .basic c ∈ ft k) → startsPage c = false) :
    ∀ k, k < prog.countP Layout.isPage → ∃ pre ht a b post, plain = pre ++ .other (.addPage ht) :: (a ++ b ++ post) ∧
      pre.countP startsPage = k ∧ WritesAll (hd (n + k + 1)) a ∧ WritesAll (ft (n + k + 1)) b := by
  induction h with
  | nil => intro k hk; simp at hk
  | @block hd ft n b rest p q hw hr ih =>
    intro k hk
    obtain ⟨pre, ht, x, y, post, h1, h0, h2, h3⟩ := ih (fun f hm => hh f (by simp [hm])) (fun f hm => hf f (by simp [hm]))
      (fun x hm => hb x (hm.imp (fun h => List.mem_cons_of_mem _ h) id)) k (by rw [List.countP_cons] at hk; simpa [Layout.isPage] using hk)
    refine ⟨p ++ pre, ht, x, y, post, by rw [h1]; simp, ?_, h2, h3⟩
    rw [List.countP_append, h0, writes_no_page hw (fun c e => hb c (by simp [e])), Nat.zero_add]
  | @page hd ft n h0 rest a b q ha hb' hr ih =>
    intro k hk
    cases k with
    | zero => exact ⟨[], h0, a, b, q, rfl, rfl, ha, hb'⟩
    | succ k =>
      obtain ⟨pre, ht, x, y, post, h1, h4, h2, h3⟩ := ih (fun f hm => hh f (by simp [hm])) (fun f hm => hf f (by simp [hm]))
        (fun x hm => hb x (hm.imp (fun h => List.mem_cons_of_mem _ h) id)) k (by rw [List.countP_cons] at hk; simp [Layout.isPage] at hk; omega)
      refine ⟨.other (.addPage h0) :: (a ++ b ++ pre), ht, x, y, post, by rw [h1]; simp, ?_, ?_, ?_⟩
      · rw [List.countP_cons, List.countP_append, List.countP_append, h4, writesAll_no_page ha (fun c hc => hb c (.inr ⟨_, .inl hc⟩)),
          writesAll_no_page hb' (fun c hc => hb c (.inr ⟨_, .inr hc⟩))]
        simp [startsPage, Program.isPage]
      · rwa [show n + 1 + k + 1 = n + (k + 1) + 1 by omega] at h2
      · rwa [show n + 1 + k + 1 = n + (k + 1) + 1 by omega] at h3
  | header _ _ => exact absurd List.mem_cons_self (hh _)
  | footer _ _ => exact absurd List.mem_cons_self (hf _)

end Verif.Props
