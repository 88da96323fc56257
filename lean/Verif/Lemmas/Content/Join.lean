import Verif.Lemmas.Content.Nest
/- Joining text. -/
namespace Verif.Content
open Paint Drawing
open TextRun (RunFont withIndex tjLoop sumWidth glyphWidth)

/-! ### The marks already there do not matter -/

def Reader.pre (m : List Mark) (r : Reader) : Reader := { r with marks := m ++ r.marks }

theorem exec_pre (wd : Widths) (m : List Mark) (r : Reader) (o : Op) :
    exec wd (Reader.pre m r) o = (exec wd r o).map (Reader.pre m) := by
  obtain ⟨g, st, lv, mk⟩ := r
  cases o <;> cases lv <;> first
    | rfl
    | (simp [exec, exec.state, exec.extend, exec.finish, Reader.pre]; done)
    | (cases st <;> rfl)
    | (obtain ⟨_, _, _, fo, _⟩ := g
       rcases fo with _ | ⟨f, s⟩ <;> simp [exec, Reader.pre])

theorem run_pre (wd : Widths) (m : List Mark) : ∀ (l : List Op) (r : Reader),
    run wd (Reader.pre m r) l = (run wd r l).map (Reader.pre m) := by
  intro l
  induction l with
  | nil => intro r; rfl
  | cons o l ih =>
    intro r
    simp only [run_cons, exec_pre]
    cases exec wd r o with
    | none => rfl
    | some r' => simp [ih]

/-- What is compared: everything but the position of the marks and the shapes. -/
def view (r : Reader) : GState × List GState × Level × List (Nat × GState) := (r.g, r.stack, r.level, glyphs r.marks)

theorem glyphs_append (a b : List Mark) : glyphs (a ++ b) = glyphs a ++ glyphs b := by simp [glyphs]

theorem run_view (wd : Widths) (l : List Op) (r1 r2 : Reader) (h : view r1 = view r2) :
    (run wd r1 l).map view = (run wd r2 l).map view := by
  have e1 : ∀ r : Reader, r = Reader.pre r.marks ⟨r.g, r.stack, r.level, []⟩ := by
    intro r; simp [Reader.pre]
  simp only [view, Prod.mk.injEq] at h
  obtain ⟨h1, h2, h3, h4⟩ := h
  rw [e1 r1, e1 r2, run_pre, run_pre, h1, h2, h3]
  cases run wd ⟨r2.g, r2.stack, r2.level, []⟩ l with
  | none => rfl
  | some r' => simp [view, Reader.pre, glyphs_append, h4]

/-- Only glyphs: codes and state. -/
theorem glyphs_show (wd : Widths) (g : GState) (f : Nat) (s : ℚ) : ∀ (l : List TextShow.Item) (pen : ℚ × ℚ),
    glyphs (show' wd g f s pen l).2 = (l.filterMap fun | .code n => some n | .adjust _ => none).map fun c => (c, g) := by
  intro l
  induction l with
  | nil => intro pen; rfl
  | cons i l ih =>
    intro pen
    cases i with
    | code c =>
      have := ih (pen.1 + wd f c / 1000 * s + g.charSpace, pen.2)
      simp only [show', glyphs, List.filterMap_cons] at this ⊢
      simp [this]
    | adjust n =>
      have := ih (pen.1 - n / 1000 * s, pen.2)
      simp only [show', List.filterMap_cons] at this ⊢
      simp [this]

theorem glyphs_noGlyph {l : List Mark} (h : NoGlyph l) : glyphs l = [] := by
  unfold glyphs
  rw [List.filterMap_eq_nil_iff]
  intro m hm
  cases m <;> simp
  exact h _ _ _ hm

theorem codes_loop (f : RunFont) (j : TextRun.Just) : ∀ (text : List (Nat × Nat)) (left : Nat × Nat),
    ((tjLoop f j left text).map tjItem).filterMap (fun | .code n => some n | .adjust _ => none) =
      text.filterMap fun p => f.map.val p.2 := by
  intro text
  induction text with
  | nil => intro left; rfl
  | cons p text ih =>
    intro left
    obtain ⟨i, r⟩ := p
    simp only [tjLoop, List.filterMap_cons]
    cases hv : f.map.val r with
    | none => simpa using ih left
    | some g =>
      simp only [List.map_append, List.filterMap_append]
      rw [ih (r, g)]
      have h1 : ∀ (c : Prop) [Decidable c] (n : Int),
          ((if c then [TextRun.TJ.adj n] else []).map tjItem).filterMap
            (fun | TextShow.Item.code n => some n | TextShow.Item.adjust _ => none) = [] := by
        intro c _ n; split <;> simp [tjItem]
      rw [h1]
      cases j with
      | none => simp [tjItem]
      | some t => simp only; rw [h1]; simp [tjItem]

theorem withIndex_snd : ∀ (text : List Nat) (i : Nat), (withIndex i text).map (·.2) = text := by
  intro text
  induction text with
  | nil => intro i; rfl
  | cons r text ih => intro i; simp [withIndex, ih]

/-- The glyphs of a text item. -/
def itemCodes (e : Env) (t : TextItem) : List Nat := t.text.filterMap (e.fonts t.font).run.map.val

theorem codes_tjOf (e : Env) (t : TextItem) :
    (tjOf e t).filterMap (fun | .code n => some n | .adjust _ => none) = itemCodes e t := by
  unfold tjOf itemCodes
  rw [codes_loop]
  conv_rhs => rw [← withIndex_snd t.text 0, List.filterMap_map]
  rfl

/-- Executing a text item, as far as compared. -/
theorem view_text (wd : Widths) (e : Env) (t : TextItem) (r : Reader) (hr : r.level = .page) :
    (run wd r (ops e (.text t))).map view = some (textAfter t r.g, r.stack, .page,
      glyphs r.marks ++ (itemCodes e t).map fun c => (c, textState t r.g)) := by
  obtain ⟨k, h, hk⟩ := runs_text wd e t
  simp only [ops]
  rw [h r hr]
  simp only [Option.map_some, view, glyphs_append, glyphs_noGlyph (hk _), List.append_nil]
  rw [glyphs_show, codes_tjOf, hr]

/-! ### Page level between items -/

theorem level_append (wd : Widths) (a b : List Op)
    (ha : ∀ r r', r.level = .page → run wd r a = some r' → r'.level = .page)
    (hb : ∀ r r', r.level = .page → run wd r b = some r' → r'.level = .page) :
    ∀ r r', r.level = .page → run wd r (a ++ b) = some r' → r'.level = .page := by
  intro r r' hr h
  rw [run_append] at h
  obtain ⟨r1, h1, h2⟩ := Option.bind_eq_some_iff.1 h
  exact hb _ _ (ha _ _ hr h1) h2

theorem level_ops (wd : Widths) (e : Env) (i : Item) (r r' : Reader) (hr : r.level = .page)
    (h : run wd r (ops e i) = some r') : r'.level = .page := by
  by_cases hn : i.neutral = true
  · by_cases hg : i.good
    · obtain ⟨f, k, hk⟩ := runs_neutral wd e i hn hg
      rw [hk r hr] at h
      obtain rfl := Option.some.inj h
      exact hr
    · cases i <;> simp [Item.good] at hg
      case polygon ht pts st ext =>
        subst hg
        have he : ops e (.polygon ht [] st ext) = .q :: (ext.map Op.gs ++ [.paint (st ≠ .fill) st, .Q]) := by
          simp [ops, pathOps]
        rw [he, run_cons] at h
        simp only [exec, hr, if_true, Option.bind_some] at h
        rw [run_append, run_gs wd ext _ (by rfl)] at h
        simp [run_cons, exec, exec.finish] at h
      case clipPolygon ht pts =>
        subst hg
        simp [ops, pathOps, run_cons, exec, exec.extend, hr] at h
  · cases i <;> simp [Item.neutral] at hn
    case rotate h' a x y =>
      simp only [ops, run_cons, exec, hr, if_true, Option.bind_some] at h
      rw [Runs.rotate wd e x y a h' _ rfl] at h
      obtain rfl := Option.some.inj h
      rfl
    case save =>
      simp only [ops, run_cons, run, exec, hr, if_true, Option.bind_some] at h
      obtain rfl := Option.some.inj h
      rfl
    case restore =>
      cases hs : r.stack with
      | nil => simp [ops, run_cons, exec, hr, hs] at h
      | cons g st =>
        simp only [ops, run_cons, run, exec, hr, hs, Option.bind_some] at h
        obtain rfl := Option.some.inj h
        rfl
    case rotateReset =>
      cases hs : r.stack with
      | nil => simp [ops, run_cons, exec, hr, hs] at h
      | cons g st =>
        simp only [ops, run_cons, run, exec, hr, hs, Option.bind_some] at h
        obtain rfl := Option.some.inj h
        rfl

theorem level_items (wd : Widths) (e : Env) : ∀ (items : List Item) (r r' : Reader), r.level = .page →
    run wd r (pageOps e items) = some r' → r'.level = .page := by
  intro items
  induction items with
  | nil =>
    intro r r' hr h
    obtain rfl : r = r' := by simpa [pageOps, run] using h
    exact hr
  | cons i items ih =>
    intro r r' hr h
    unfold pageOps at h
    rw [List.flatMap_cons, run_append] at h
    obtain ⟨r1, h1, h2⟩ := Option.bind_eq_some_iff.1 h
    exact ih r1 r' (level_ops wd e i r r1 hr h1) h2

/-! ### Pages with the same glyphs -/

/-- Executing the two lists of items gives the same view. -/
def SameView (wd : Widths) (e : Env) (a b : List Item) : Prop :=
  (run wd {} (pageOps e a)).map view = (run wd {} (pageOps e b)).map view

theorem pageOps_snoc (e : Env) (a : List Item) (i : Item) : pageOps e (a ++ [i]) = pageOps e a ++ ops e i := by
  simp [pageOps]

theorem SameView.bind {wd : Widths} {e : Env} {a b : List Item} (h : SameView wd e a b) {la lb : List Op}
    (hl : ∀ r1 r2 : Reader, r1.level = .page → r2.level = .page → view r1 = view r2 →
      (run wd r1 la).map view = (run wd r2 lb).map view) :
    (run wd {} (pageOps e a ++ la)).map view = (run wd {} (pageOps e b ++ lb)).map view := by
  rw [run_append, run_append]
  unfold SameView at h
  cases ha : run wd {} (pageOps e a) with
  | none =>
    rw [ha] at h
    have hb : run wd {} (pageOps e b) = none := by simpa using h.symm
    rw [hb]; rfl
  | some r1 =>
    cases hb : run wd {} (pageOps e b) with
    | none => rw [ha, hb] at h; simp at h
    | some r2 =>
      rw [ha, hb] at h
      exact hl r1 r2 (level_items wd e a _ _ rfl ha) (level_items wd e b _ _ rfl hb) (by simpa using h)

theorem SameView.snoc {wd : Widths} {e : Env} {a b : List Item} (h : SameView wd e a b) (i : Item) :
    SameView wd e (a ++ [i]) (b ++ [i]) := by
  unfold SameView
  rw [pageOps_snoc, pageOps_snoc]
  exact h.bind fun r1 r2 _ _ hv => run_view wd _ r1 r2 hv

/-- Fields that decide how the glyphs of an item look. -/
structure Alike (t t' : TextItem) : Prop where
  font : t.font = t'.font
  size : t.fontSize = t'.fontSize
  spacing : t.charSpacing = t'.charSpacing
  colour : t.colour = t'.colour
  inColour : t.inColour = t'.inColour
  ext : t.opt.ext = t'.opt.ext

theorem Alike.state {t t' : TextItem} (h : Alike t t') (g : GState) : textState t g = textState t' g ∧ textAfter t g = textAfter t' g := by
  obtain ⟨h1, h2, h3, h4, h5, h6⟩ := h
  have : textState t g = textState t' g := by unfold textState; rw [h1, h2, h3, h4, h5, h6]
  refine ⟨this, ?_⟩
  unfold textAfter; rw [h6, this]

/-- Appending text items that look alike and have the same text. -/
theorem SameView.text {wd : Widths} {e : Env} {a b : List Item} (h : SameView wd e a b) {t t' : TextItem} (ha : Alike t t')
    (ht : t.text = t'.text) : SameView wd e (a ++ [.text t]) (b ++ [.text t']) := by
  unfold SameView
  rw [pageOps_snoc, pageOps_snoc]
  refine h.bind fun r1 r2 h1 h2 hv => ?_
  rw [view_text wd e t r1 h1, view_text wd e t' r2 h2]
  simp only [view, Prod.mk.injEq] at hv
  obtain ⟨v1, v2, -, v4⟩ := hv
  rw [v1, v2, v4, (ha.state r2.g).1, (ha.state r2.g).2, itemCodes, itemCodes, ht, ha.font]

/-- Joining: extending the last item is like appending another one. -/
theorem SameView.join {wd : Widths} {e : Env} {pre b : List Item} {t t' n : TextItem} (h : SameView wd e (pre ++ [.text t]) b)
    (ht : Alike t t') (hn : Alike t n) (htext : t'.text = t.text ++ n.text) :
    SameView wd e (pre ++ [.text t']) (b ++ [.text n]) := by
  have key : SameView wd e (pre ++ [.text t']) (pre ++ [.text t] ++ [.text n]) := by
    have hself : SameView wd e pre pre := rfl
    unfold SameView
    rw [pageOps_snoc, pageOps_snoc, pageOps_snoc, List.append_assoc]
    refine hself.bind fun r1 r2 h1 h2 hv => ?_
    rw [view_text wd e t' r1 h1, run_append]
    have ht2 := view_text wd e t r2 h2
    cases hr : run wd r2 (ops e (.text t)) with
    | none => rw [hr] at ht2; simp at ht2
    | some r3 =>
      rw [hr] at ht2
      simp only [Option.map_some, Option.some.injEq, view, Prod.mk.injEq] at ht2
      obtain ⟨g1, g2, g3, g4⟩ := ht2
      rw [Option.bind_some, view_text wd e n r3 g3, g1, g2, g4]
      simp only [view, Prod.mk.injEq] at hv
      obtain ⟨v1, v2, -, v4⟩ := hv
      rw [v1, v2, v4]
      have s1 := ht.state r2.g
      have hst : textState n (textAfter t r2.g) = textState t r2.g := by
        rw [← (hn.state (textAfter t r2.g)).1]
        unfold textAfter
        split
        · next hx => simp only [textState, hx, List.append_nil]; split <;> simp <;> cases t.colour <;> simp
        · rfl
      have haf : textAfter n (textAfter t r2.g) = textAfter t r2.g := by
        rw [← (hn.state (textAfter t r2.g)).2]
        unfold textAfter
        by_cases hx : t.opt.ext = []
        · simp only [hx, if_true]
          simp only [textState, hx, List.append_nil]; split <;> simp <;> cases t.colour <;> simp
        · simp only [hx, if_false]
      rw [hst, haf, ← s1.1, ← s1.2]
      simp only [itemCodes, htext, ← ht.font, ← hn.font, List.filterMap_append, List.map_append, List.append_assoc]
  have h2 := h.snoc (.text n)
  exact key.trans h2

/-! ### Measuring part of a text -/

theorem sumWidth_ok (f : RunFont) (space : Int) : ∀ (l : List (Nat × Nat)) (left : Nat × Nat),
    (∃ s, sumWidth f space left l = .ok s) ↔ ∀ p ∈ l, ∀ g, f.map.val p.2 = some g → ∃ w, glyphWidth f g = .ok w := by
  intro l
  induction l with
  | nil => intro left; simp [sumWidth]
  | cons p l ih =>
    intro left
    obtain ⟨i, r⟩ := p
    simp only [sumWidth, List.mem_cons, forall_eq_or_imp]
    cases hv : f.map.val r with
    | none => simp [ih]
    | some g =>
      simp only
      cases hw : glyphWidth f g with
      | error e => simp [hw]
      | ok w =>
        simp only
        have := ih (r, g)
        constructor
        · intro h
          refine ⟨fun g' hg' => ?_, this.1 ?_⟩
          · obtain rfl := Option.some.inj hg'; exact ⟨w, hw⟩
          · cases hs : sumWidth f space (r, g) l with
            | error e => rw [hs] at h; simp at h
            | ok s => exact ⟨s, rfl⟩
        · rintro ⟨-, h⟩
          obtain ⟨s, hs⟩ := this.2 h
          rw [hs]; exact ⟨_, rfl⟩

theorem mem_withIndex : ∀ (text : List Nat) (i : Nat) (p : Nat × Nat), p ∈ withIndex i text → p.2 ∈ text := by
  intro text i p hp
  have := withIndex_snd text i
  rw [← this]
  exact List.mem_map_of_mem hp

theorem exists_withIndex : ∀ (text : List Nat) (i r : Nat), r ∈ text → ∃ p ∈ withIndex i text, p.2 = r := by
  intro text i r hr
  rw [← withIndex_snd text i] at hr
  simpa using hr

/-- Measuring works iff every character that has a glyph has a width. -/
theorem createContent_ok (f : Font) (text : List Nat) (size cs : ℚ) (rect : Option Units.Rect) :
    (∃ r, createContent f text size cs rect = some r) ↔
      ∀ r ∈ text, ∀ g, f.run.map.val r = some g → ∃ w, glyphWidth f.run g = .ok w := by
  have h := sumWidth_ok f.run (spaceWidth f size cs) (withIndex 0 text) (0, 0)
  constructor
  · rintro ⟨r, hr⟩ c hc
    unfold createContent at hr
    cases hs : sumWidth f.run (spaceWidth f size cs) (0, 0) (withIndex 0 text) with
    | error e => rw [hs] at hr; simp at hr
    | ok s =>
      obtain ⟨p, hp, rfl⟩ := exists_withIndex text 0 c hc
      exact h.1 ⟨s, hs⟩ p hp
  · intro hall
    obtain ⟨s, hs⟩ := h.2 fun p hp => hall p.2 (mem_withIndex _ _ _ hp)
    unfold createContent
    rw [hs]
    cases rect <;> exact ⟨_, rfl⟩

theorem extend_part {e : Env} {c c' : TextItem} {text : List Nat} {t : TextItem} (h : extend e c' text = some t)
    (hf : c'.font = c.font) (hc : c.text = []) : ∃ n, extend e c text = some n := by
  unfold extend at h ⊢
  obtain ⟨r, hr, -⟩ := Option.map_eq_some_iff.1 h
  have hall := (createContent_ok _ _ _ _ _).1 ⟨r, hr⟩
  obtain ⟨r', hr'⟩ := (createContent_ok (e.fonts c.font) (c.text ++ text) c.fontSize c.charSpacing c.rectangle).2
    (by rw [hc, ← hf]; intro x hx; exact hall x (by simp_all))
  exact ⟨_, by rw [hr']; rfl⟩

theorem extend_alike {e : Env} {c t : TextItem} {text : List Nat} (h : extend e c text = some t) :
    Alike c t ∧ t.text = c.text ++ text := by
  unfold extend at h
  obtain ⟨r, hr, rfl⟩ := Option.map_eq_some_iff.1 h
  exact ⟨⟨rfl, rfl, rfl, rfl, rfl, rfl⟩, rfl⟩

end Verif.Content
