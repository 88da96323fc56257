import Verif.Lemmas.Layout.Fits
import Verif.Props.Table
/- The calls a layout program makes, and the plain program that writes the same. -/
set_option maxRecDepth 10000
namespace Verif.Layout
open Typeset (wishes Wish Face Registered registerFont selectFont startsPage texts Loaded Good GoodFace Instead Setting setting accepted Stands Gives)
open Props (IsScalar)

/-- What the first asks for, the second is met with, too. -/
def Serves (a b : Wish) : Prop := a.face = b.face ∧ ∀ g, Stands a.face a.char g → Stands b.face b.char g

theorem Serves.refl (a : Wish) : Serves a a := ⟨rfl, fun _ h => h⟩

/-- Fonts and current font after calls. -/
def ctx (p : Registered × Option Face) (cs : List Typeset.Call) : Registered × Option Face :=
  cs.foldl (fun p c => (registerFont p.1 c, selectFont p.1 p.2 c)) p

theorem ctx_append (p : Registered × Option Face) (a b : List Typeset.Call) : ctx p (a ++ b) = ctx (ctx p a) b := List.foldl_append ..

theorem ctx_reg : ∀ (cs : List Typeset.Call) (p : Registered × Option Face), (ctx p cs).1 = cs.foldl registerFont p.1
  | [], _ => rfl
  | c :: cs, p => by
    show (ctx _ cs).1 = _
    rw [ctx_reg cs]
    rfl

theorem ctx_setting : ∀ (cs : List Typeset.Call) (x : Setting), ctx (x.reg, x.face) cs = ((cs.foldl Setting.after x).reg, (cs.foldl Setting.after x).face)
  | [], _ => rfl
  | c :: cs, x => ctx_setting cs (x.after c)

theorem ctx_still : ∀ (cs : List Typeset.Call) (p : Registered × Option Face), (∀ c ∈ cs, Still c) → ctx p cs = p
  | [], _, _ => rfl
  | c :: cs, p, h => by
    show ctx (registerFont p.1 c, selectFont p.1 p.2 c) cs = p
    rw [(h c (by simp)).reg, (h c (by simp)).sel]
    exact ctx_still cs p (fun c hc => h c (by simp [hc]))

theorem count_still : ∀ (cs : List Typeset.Call), (∀ c ∈ cs, Still c) → cs.countP startsPage = 0
  | [], _ => rfl
  | c :: cs, h => by rw [List.countP_cons, count_still cs (fun c hc => h c (by simp [hc])), (h c (by simp)).page]; rfl

/-- The two programs write the same, from there on. -/
structure Rel (p : Registered × Option Face) (cs ps : List Typeset.Call) : Prop where
  wishes : ∀ k n, List.Forall₂ Serves (wishes k n p.1 p.2 cs) (wishes k n p.1 p.2 ps)
  ctx : ctx p cs = ctx p ps
  pages : cs.countP startsPage = ps.countP startsPage

theorem Rel.refl (p : Registered × Option Face) (cs : List Typeset.Call) : Rel p cs cs :=
  ⟨fun k n => List.forall₂_same.2 fun x _ => Serves.refl x, rfl, rfl⟩

theorem Rel.append {p : Registered × Option Face} {a b c d : List Typeset.Call} (h : Rel p a b) (h' : Rel (Layout.ctx p a) c d) : Rel p (a ++ c) (b ++ d) := by
  refine ⟨fun k n => ?_, ?_, ?_⟩
  · rw [wishes_append, wishes_append]
    refine List.rel_append (h.wishes k n) ?_
    have e1 := ctx_reg a p
    have e2 := ctx_reg b p
    have := h'.wishes k (n + a.countP startsPage)
    rw [← e1, ← e2, ← h.ctx, ← h.pages]
    have e3 : (List.foldl (fun (p : Registered × Option Face) c => (registerFont p.1 c, selectFont p.1 p.2 c)) (p.1, p.2) a).2 = (Layout.ctx p a).2 := rfl
    have e4 : (List.foldl (fun (p : Registered × Option Face) c => (registerFont p.1 c, selectFont p.1 p.2 c)) (p.1, p.2) b).2 = (Layout.ctx p a).2 := by
      rw [h.ctx]; rfl
    rw [e3, e4]
    exact this
  · rw [ctx_append, ctx_append, h'.ctx, h.ctx]
  · rw [List.countP_append, List.countP_append, h.pages, h'.pages]

theorem wishes_silent (k : Nat) : ∀ (cs : List Typeset.Call), (∀ c ∈ cs, Still c) → cs.flatMap texts = [] → ∀ (n : Nat) (reg : Registered) (cur : Option Face),
    wishes k n reg cur cs = []
  | [], _, _, n, reg, cur => rfl
  | c :: cs, h, ht, n, reg, cur => by
    have hc := h c (by simp)
    rw [List.flatMap_cons, List.append_eq_nil_iff] at ht
    simp only [wishes, hc.reg, hc.sel, hc.page, Bool.false_eq_true, if_false, wishes_silent k cs (fun x hx => h x (by simp [hx])) ht.2, ht.1]
    cases cur <;> simp

/-- Calls without text. -/
theorem Rel.silent (p : Registered × Option Face) {cs : List Typeset.Call} (h : ∀ c ∈ cs, Still c) (ht : cs.flatMap texts = []) : Rel p cs [] :=
  ⟨fun k n => by rw [wishes_silent k cs h ht]; exact .nil, ctx_still cs p h, count_still cs h⟩

/-- Calls that write a text. -/
theorem Rel.still {p : Registered × Option Face} {f : Face} (hp : p.2 = some f) {cs : List Typeset.Call} (h : ∀ c ∈ cs, Still c) {w : List Nat}
    (ht : List.Forall₂ (fun r' r => ∀ g, Stands f r' g → Stands f r g) (cs.flatMap texts) w) : Rel p cs [.text w] := by
  have hw : ∀ c ∈ [Typeset.Call.text w], Still c := by
    intro c hc
    obtain rfl := List.mem_singleton.1 hc
    trivial
  refine ⟨fun k n => ?_, by rw [ctx_still cs p h, ctx_still _ p hw], by rw [count_still cs h, count_still _ hw]⟩
  rw [hp, wishes_still k cs h, wishes_still k _ hw]
  split
  · simp only [List.flatMap_singleton, texts, List.forall₂_map_left_iff, List.forall₂_map_right_iff]
    exact ht.imp fun a b hab => ⟨rfl, hab⟩
  · exact .nil

/-- A substitute stands for the character. -/
theorem Instead.serves {x : Loaded} (hf : GoodFace x.face) (hg : Good x) {r r' : Nat} (h : Instead x r r') (g : Nat) (hs : Stands x.face r' g) :
    Stands x.face r g := by
  rcases h.drawn hf hg with ⟨-, rfl⟩ | ⟨h1, rfl⟩
  · exact hs
  · cases hs with
    | own h => exact .substitute h1 h
    | substitute h h' => rw [hf.again] at h'; exact .substitute h1 h'
    | missing h h' => exact .missing h1 h

theorem prefix_serves {x : Loaded} (hf : GoodFace x.face) (hg : Good x) {t out a : List Nat} (h : List.Forall₂ (Instead x) t out) (ha : a <+: out) :
    ∃ w, w <+: t ∧ (a.length = out.length → w = t) ∧ List.Forall₂ (fun r' r => ∀ g, Stands x.face r' g → Stands x.face r g) a w := by
  refine ⟨t.take a.length, List.take_prefix .., fun e => ?_, ?_⟩
  · rw [e, ← h.length_eq, List.take_length]
  · rw [List.prefix_iff_eq_take.1 ha, List.length_take, min_eq_left ha.length_le]
    exact ((List.forall₂_take a.length h).flip).imp fun a b hab => Instead.serves hf hg hab

/-! ### Blocks -/

/-- Calls that the block makes. -/
def Made (b : Block) (c : Typeset.Call) : Prop := Makes IsScalar c ∨ (∃ f st size, c = .other (.setFont f st size)) ∨ (b = .basic c ∧ startsPage c = false)

section
variable {base : Content.Env} {prot : Bool} {ml mt : ℚ} {n : Nat}

theorem Reached.ctx {l : Log} (_ : Reached base prot ml mt l) : (ctx ([], none) l.calls).2 = (setting l.calls).face := by
  have := ctx_setting l.calls {}
  rw [show (([], none) : Registered × Option Face) = (({} : Setting).reg, ({} : Setting).face) from rfl, this]
  rfl

theorem multiCell_made {l l' : Log} {r : Units.Rect} {t : List Nat} (hl : Reached base prot ml mt l) (ht : ∀ r ∈ t, IsScalar r)
    (h : multiCell base l r t = some l') :
    ∃ cs w, From base l l' cs ∧ (∀ c ∈ cs, Makes IsScalar c) ∧ w <+: t ∧ Rel (Layout.ctx ([], none) l.calls) cs [.text w] := by
  obtain ⟨fonts, out, cs, h1, h2, h3, h4⟩ := multiCell_from ht (fun fonts out ha => by
    obtain ⟨x, -, -, x3, x4, -⟩ := hl.chars ht ha
    exact Instead.scalar x3 x4 ht) h
  obtain ⟨x, x1, x2, x3, x4, -⟩ := hl.chars ht h1
  obtain ⟨w, w1, -, w3⟩ := prefix_serves x2 x3 x4 h4
  exact ⟨cs, w, h2, h3, w1, Rel.still (hl.ctx.trans x1) (fun c hc => (h3 c hc).1) w3⟩

theorem fits_made {l l' m : Log} {r : Units.Rect} {t : List Nat} (hl : Reached base prot ml mt l) (ht : ∀ r ∈ t, IsScalar r)
    (h : isFit base l r t = some (true, l')) (hm : multiCell base l' r t = some m) :
    ∃ cs, From base l m cs ∧ (∀ c ∈ cs, Makes IsScalar c) ∧ Rel (Layout.ctx ([], none) l.calls) cs [.text t] := by
  obtain ⟨fonts, out, cs, h1, h2, h3, h4⟩ := fits_all hl ht h hm
  obtain ⟨x, x1, x2, x3, x4, -⟩ := hl.chars ht h1
  obtain ⟨w, -, w2, w3⟩ := prefix_serves x2 x3 x4 (List.prefix_rfl (l := out))
  obtain rfl := w2 rfl
  exact ⟨cs, h2, h3, Rel.still (hl.ctx.trans x1) (fun c hc => (h3 c hc).1) (by rw [h4]; exact w3)⟩

theorem multiCellOpt_made {l l' : Log} {r : Units.Rect} {t : List Nat} {opt : Content.CellOption} {b : Content.BreakOption} {tr : Option Doc.Tr}
    (hl : Reached base prot ml mt l) (ht : ∀ r ∈ t, IsScalar r) (hs : ∀ r ∈ b.separator, IsScalar r) (h : multiCellOpt base n l r t opt b tr = some l') :
    ∃ cs w, From base l l' cs ∧ (∀ c ∈ cs, Makes IsScalar c) ∧ Kept (indicatorOf b) b.separator t w ∧ Rel (Layout.ctx ([], none) l.calls) cs [.text w] := by
  obtain ⟨cs, h1, h2, h3, h4⟩ := multiCellOpt_from ht hs h
  obtain ⟨⟨fonts, out⟩, ha⟩ := Option.ne_none_iff_exists'.1 h4
  obtain ⟨x, x1, -⟩ := hl.chars ht ha
  exact ⟨cs, _, h1, h2, h3, Rel.still (hl.ctx.trans x1) (fun c hc => (h2 c hc).1) (List.forall₂_same.2 fun _ _ _ hg => hg)⟩

theorem border_still (x1 y1 x2 y2 : ℚ) (b : Table.Border) : ∀ c ∈ (Table.borderCalls x1 y1 x2 y2 b).map ofTable, Makes IsScalar c ∧ texts c = [] := by
  intro c hc
  obtain ⟨k, hk, rfl⟩ := List.mem_map.1 hc
  unfold Table.borderCalls at hk
  split at hk
  · simp at hk
  · simp only [List.mem_append, List.mem_cons, List.not_mem_nil, or_false] at hk
    rcases hk with ((((rfl | rfl) | hk) | hk) | hk) | hk
    · exact ⟨⟨trivial, trivial⟩, rfl⟩
    · exact ⟨⟨trivial, trivial⟩, rfl⟩
    all_goals
      split at hk
      · obtain rfl := List.mem_singleton.1 hk
        exact ⟨⟨trivial, trivial⟩, rfl⟩
      · simp at hk

theorem fill_still (c : Table.Cell) : ∀ k ∈ (Table.fillCalls c).map ofTable, Makes IsScalar k ∧ texts k = [] := by
  intro k hk
  obtain ⟨j, hj, rfl⟩ := List.mem_map.1 hk
  unfold Table.fillCalls at hj
  split at hj
  · simp only [List.mem_cons, List.not_mem_nil, or_false] at hj
    rcases hj with rfl | rfl <;> exact ⟨⟨trivial, trivial⟩, rfl⟩
  · simp at hj

/-- The calls before the text of a cell: no text, then the font. -/
theorem cell_calls (t : Table.Table) (c : Table.Cell) : ∃ a, (Table.cellCalls t c).map ofTable =
    a ++ cellFont c ∧ ∀ k ∈ a, Makes IsScalar k ∧ texts k = [] := by
  refine ⟨(Table.fillCalls c).map ofTable ++ (if c.header then [] else (Table.borderCalls c.x c.y (c.x + c.width) (c.y + c.height) c.style.border).map ofTable) ++
    [.other (.plain (.setXY (c.x + t.padding) (c.y + t.padding))), .other (.plain (.setTextColour (.rgb c.style.text.r c.style.text.g c.style.text.b)))], ?_, ?_⟩
  · unfold Table.cellCalls
    simp only [List.map_append]
    congr 1
    · congr 2
      split <;> simp
    · unfold cellFont
      cases c.style.font <;> rfl
  · intro k hk
    simp only [List.mem_append, List.mem_cons, List.not_mem_nil, or_false] at hk
    rcases hk with (hk | hk) | rfl | rfl
    · exact fill_still c k hk
    · split at hk
      · simp at hk
      · exact border_still _ _ _ _ _ k hk
    · exact ⟨⟨trivial, trivial⟩, rfl⟩
    · exact ⟨⟨trivial, trivial⟩, rfl⟩

def CallOf (c : Typeset.Call) : Prop := Makes IsScalar c ∨ ∃ f st size, c = .other (.setFont f st size)

theorem Reached.calls {l l' : Log} {cs : List Typeset.Call} (h : Reached base prot ml mt l) (hf : From base l l' cs) (ho : ∀ c ∈ cs, CallOf c) :
    Reached base prot ml mt l' := by
  refine h.go hf (fun c hc => ?_) (fun _ _ _ hc => ?_)
  · rcases ho c hc with h | ⟨_, _, _, rfl⟩
    · exact h.ok
    · trivial
  · rcases ho _ hc with h | ⟨_, _, _, h⟩
    · exact h.1.elim
    · cases h

theorem From.ctx {l l' : Log} {cs : List Typeset.Call} (h : From base l l' cs) (p : Registered × Option Face) :
    Layout.ctx p l'.calls = Layout.ctx (Layout.ctx p l.calls) cs := by rw [h.1, ctx_append]

theorem drawCell_made {l l' : Log} {t : Table.Table} {c : Table.Cell} (hl : Reached base prot ml mt l) (ht : ∀ r ∈ c.content, IsScalar r)
    (h : drawCell base n t l c = some l') :
    ∃ cs ps, From base l l' cs ∧ (∀ k ∈ cs, CallOf k) ∧ CellWrites c ps ∧ Rel (Layout.ctx ([], none) l.calls) cs ps := by
  obtain ⟨l1, h1, h2⟩ := Option.bind_eq_some_iff.1 h
  have f1 := acts_from _ h1
  obtain ⟨a, ha, hs⟩ := cell_calls t c
  rw [ha] at f1
  have hcall : ∀ k ∈ a ++ cellFont c, CallOf k := by
    intro k hk
    rcases List.mem_append.1 hk with hk | hk
    · exact .inl (hs k hk).1
    · cases hfo : c.style.font with
      | none => rw [cellFont, hfo] at hk; simp at hk
      | some f => rw [cellFont, hfo] at hk; exact .inr ⟨f, 0, _, List.mem_singleton.1 hk⟩
  obtain ⟨cs, w, c1, c2, c3, c4⟩ := multiCellOpt_made (hl.calls f1 hcall) ht (by simp) h2
  refine ⟨_, _, f1.trans c1, ?_, ⟨w, c3, rfl⟩, ?_⟩
  · intro k hk
    rcases List.mem_append.1 hk with hk | hk
    · exact hcall k hk
    · exact .inl (c2 k hk)
  · refine Rel.append ?_ (by rw [f1.ctx] at c4; exact c4)
    have := Rel.append (Rel.silent (Layout.ctx ([], none) l.calls) (fun k hk => (hs k hk).1.1) (List.flatMap_eq_nil_iff.2 fun k hk => (hs k hk).2))
      (Rel.refl _ (cellFont c))
    simpa using this

theorem drawCells_made {t : Table.Table} : ∀ (cells : List Table.Cell) {l l' : Log}, Reached base prot ml mt l → (∀ c ∈ cells, ∀ r ∈ c.content, IsScalar r) →
    drawCells base n t l cells = some l' →
    ∃ cs ps, From base l l' cs ∧ (∀ k ∈ cs, CallOf k) ∧ List.Forall₂ CellWrites cells ps ∧ Rel (Layout.ctx ([], none) l.calls) cs ps.flatten
  | [], l, l', hl, _, h => by
    simp only [drawCells, Option.some.injEq] at h
    subst h
    exact ⟨[], [], From.refl base l, by simp, .nil, Rel.refl _ _⟩
  | c :: cells, l, l', hl, ht, h => by
    obtain ⟨l1, h1, h2⟩ := Option.bind_eq_some_iff.1 h
    obtain ⟨cs, ps, a1, a2, a3, a4⟩ := drawCell_made hl (ht c (by simp)) h1
    obtain ⟨ds, qs, b1, b2, b3, b4⟩ := drawCells_made cells (hl.calls a1 a2) (fun c hc => ht c (by simp [hc])) h2
    refine ⟨_, ps :: qs, a1.trans b1, ?_, .cons a3 b3, ?_⟩
    · intro k hk
      rcases List.mem_append.1 hk with hk | hk
      · exact a2 k hk
      · exact b2 k hk
    · rw [a1.ctx] at b4
      exact a4.append b4

theorem table_texts {t : Table.Table} {c : Table.Cell} (hc : c ∈ TableSpec.headerCells t ++ TableSpec.dataCells t ++ TableSpec.blankCells t) :
    c.content = [] ∨ c.content ∈ (Block.table t).texts := by
  simp only [List.mem_append] at hc
  rcases hc with (hc | hc) | hc
  · simp only [TableSpec.headerCells, List.mem_map, List.mem_range] at hc
    obtain ⟨j, hj, rfl⟩ := hc
    refine .inr ?_
    simp only [Block.texts, TableSpec.placed, TableSpec.column, List.mem_append, List.mem_map]
    refine .inl ⟨t.columns[j], List.getElem_mem hj, ?_⟩
    rw [List.getD_eq_getElem?_getD, List.getElem?_eq_getElem hj]; rfl
  · simp only [TableSpec.dataCells, List.mem_flatten, List.mem_mapIdx] at hc
    obtain ⟨row, ⟨k, hk, rfl⟩, hc⟩ := hc
    simp only [List.mem_mapIdx] at hc
    obtain ⟨j, hj, rfl⟩ := hc
    refine .inr ?_
    simp only [Block.texts, TableSpec.placed, List.mem_append, List.mem_map]
    exact .inr ⟨_, List.mem_flatten.2 ⟨_, List.getElem_mem hk, List.getElem_mem hj⟩, rfl⟩
  · simp only [TableSpec.blankCells, List.mem_flatMap, List.mem_map] at hc
    obtain ⟨b, -, j, -, rfl⟩ := hc
    exact .inl rfl

/-- What a block writes. -/
theorem block_made {l l' : Log} {b : Block} (hl : Reached base prot ml mt l) (ht : ∀ t ∈ b.texts, ∀ r ∈ t, IsScalar r)
    (h : b.run base n l = some l') : ∃ cs ps, From base l l' cs ∧ (∀ c ∈ cs, Made b c) ∧ Writes b ps ∧ Rel (Layout.ctx ([], none) l.calls) cs ps := by
  cases b with
  | basic c =>
    simp only [Block.run] at h
    split at h
    · cases h
    · next hp =>
      refine ⟨[c], [c], act_from h, fun k hk => ?_, .basic c, Rel.refl _ _⟩
      obtain rfl := List.mem_singleton.1 hk
      refine .inr (.inr ⟨rfl, ?_⟩)
      rw [Bool.not_eq_true] at hp
      cases k <;> first | rfl | exact hp
  | multiCell r t =>
    obtain ⟨cs, w, h1, h2, h3, h4⟩ := multiCell_made hl (ht t (by simp [Block.texts])) h
    exact ⟨cs, _, h1, fun c hc => .inl (h2 c hc), .multiCell r t w h3, h4⟩
  | ifFits r t =>
    obtain ⟨⟨b, l1⟩, h1, h2⟩ := Option.bind_eq_some_iff.1 h
    cases b with
    | true =>
      obtain ⟨cs, c1, c2, c3⟩ := fits_made hl (ht t (by simp [Block.texts])) h1 (by simpa using h2)
      exact ⟨cs, _, c1, fun c hc => .inl (c2 c hc), .fits r t, c3⟩
    | false =>
      simp only [Bool.false_eq_true, if_false, Option.some.injEq] at h2
      subst h2
      obtain ⟨cs, c1, c2, c3⟩ := isFit_from hl (ht t (by simp [Block.texts])) h1
      exact ⟨cs, [], c1, fun c hc => .inl (c2 c hc), .fitsNot r t, Rel.silent _ (fun c hc => (c2 c hc).1) c3⟩
  | multiCellOpt r t opt b tr =>
    obtain ⟨cs, w, h1, h2, h3, h4⟩ := multiCellOpt_made hl (ht t (by simp [Block.texts])) (ht b.separator (by simp [Block.texts])) h
    exact ⟨cs, _, h1, fun c hc => .inl (h2 c hc), .multiCellOpt r t w opt b tr h3, h4⟩
  | table t =>
    obtain ⟨cells, h1, h⟩ := Option.bind_eq_some_iff.1 h
    obtain ⟨l1, h2, h3⟩ := Option.bind_eq_some_iff.1 h
    have hrow : ∀ row ∈ t.rows, row.length ≤ t.columns.length := by
      by_contra hn
      push Not at hn
      rw [(Props.table_long_row t).2 hn] at h1
      cases h1
    rw [Props.table_cells t hrow, Option.some.injEq] at h1
    subst h1
    obtain ⟨cs, ps, c1, c2, c3, c4⟩ := drawCells_made _ hl (fun c hc r hr => by
      rcases table_texts hc with e | e
      · rw [e] at hr; simp at hr
      · exact ht _ e r hr) h2
    have ho : ∀ c ∈ (Table.outlineCalls t).map ofTable, Makes IsScalar c ∧ texts c = [] := by
      intro c hc
      simp only [Table.outlineCalls, List.map_append, List.mem_append] at hc
      rcases hc with hc | hc <;> exact border_still _ _ _ _ _ c hc
    refine ⟨_, _, c1.trans (acts_from _ h3), ?_, .table t ps c3, ?_⟩
    · intro c hc
      rcases List.mem_append.1 hc with hc | hc
      · rcases c2 c hc with h | h
        · exact .inl h
        · exact .inr (.inl h)
      · exact .inl (ho c hc).1
    · have := c4.append (Rel.silent (Layout.ctx (Layout.ctx ([], none) l.calls) cs) (fun c hc => (ho c hc).1.1) (List.flatMap_eq_nil_iff.2 fun c hc => (ho c hc).2))
      simpa using this

end

end Verif.Layout
