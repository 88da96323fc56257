import Verif.Lemmas.Content.Alone
import Verif.Lemmas.Content.Styles
import Verif.Spec.Canvas
import Mathlib.Tactic.Linarith
import Mathlib.Tactic.Ring
/- The page streams paint what the canvas shows. -/
namespace Verif.Canvas
open Content Paint
open Units (toPoints)

def Pen.seen (b : Bool) (p : Pen) : Pen := if b then p else { p with fill := .gray 0 }
def Figure.seen (b : Bool) (f : Figure) : Figure := if b then f else f.noFill

theorem toPoints_lin (c : Units.Cfg) (u v : ℚ) : toPoints c (u + v) = toPoints c u + toPoints c v := by
  unfold toPoints; split <;> ring
theorem toPoints_sub (c : Units.Cfg) (u v : ℚ) : toPoints c (u - v) = toPoints c u - toPoints c v := by
  unfold toPoints; split <;> ring
theorem toPoints_half (c : Units.Cfg) (u : ℚ) : toPoints c (u / 2) = toPoints c u / 2 := by
  unfold toPoints; split <;> ring

theorem figures_append (a b : List Mark) : figures (a ++ b) = figures a ++ figures b := by
  simp [figures]

theorem pageOps_snoc (e : Env) (items : List Item) (i : Item) : pageOps e (items ++ [i]) = pageOps e items ++ ops e i := by
  simp [pageOps]

/-- Executing the items one after the other, collecting the figures of those that are no texts. -/
inductive Painted (wd : Widths) (e : Env) : List Item → Reader → List Figure → Prop
  | nil : Painted wd e [] {} []
  | text {items : List Item} {r r' : Reader} {own : List Figure} (t : TextItem) (new : List Mark) :
    Painted wd e items r own → run wd r (textOps e t) = some r' → r'.marks = r.marks ++ new → Painted wd e (items ++ [.text t]) r' own
  | item {items : List Item} {r r' : Reader} {own : List Figure} (i : Item) (new : List Mark) : (∀ t, i ≠ .text t) →
    Painted wd e items r own → run wd r (ops e i) = some r' → r'.marks = r.marks ++ new →
    Painted wd e (items ++ [i]) r' (own ++ figures new)

theorem Painted.run {wd : Widths} {e : Env} {items : List Item} {r : Reader} {own : List Figure} (h : Painted wd e items r own) :
    Paint.run wd {} (pageOps e items) = some r := by
  induction h with
  | nil => rfl
  | text t new _ h _ ih => rw [pageOps_snoc, run_append, ih, Option.bind_some]; exact h
  | item i new _ _ h _ ih => rw [pageOps_snoc, run_append, ih, Option.bind_some]; exact h

theorem Painted.sublist {wd : Widths} {e : Env} {items : List Item} {r : Reader} {own : List Figure} (h : Painted wd e items r own) :
    own.Sublist (figures r.marks) := by
  induction h with
  | nil => exact List.Sublist.refl _
  | text t new _ _ h ih => rw [h, figures_append]; exact List.sublist_append_of_sublist_left ih
  | item i new _ _ _ h ih => rw [h, figures_append]; exact ih.append (List.Sublist.refl _)

/-- A sheet and the items of a page. -/
def SheetOK (b : Bool) (wd : Widths) (e : Env) (items : List Item) (sh : Sheet) : Prop :=
  ∃ r own, Painted wd e items r own ∧ r.level = .page ∧ r.g.ext = [] ∧ (∀ g ∈ r.stack, g.ext = []) ∧
    (penOf r.g).seen b = sh.pen.seen b ∧ r.stack.map (fun g => (penOf g).seen b) = sh.saved.map (·.seen b) ∧
    own.map (·.seen b) = sh.figs.map (·.seen b)

theorem SheetOK.empty (b : Bool) (wd : Widths) (e : Env) (h : ℚ) : SheetOK b wd e [] { height := h } :=
  ⟨{}, [], .nil, rfl, rfl, by simp, rfl, rfl, rfl⟩

/-- An item that paints and sets parameters. -/
theorem SheetOK.push {b : Bool} {wd : Widths} {e : Env} {items : List Item} {sh sh' : Sheet} {i : Item}
    {f : GState → GState} {k : GState → List Mark} (hi : ∀ t, i ≠ .text t) (hr : Runs wd (ops e i) f k) (h : SheetOK b wd e items sh)
    (hs : sh'.saved = sh.saved) (figs : List Figure) (hf : sh'.figs = sh.figs ++ figs)
    (h1 : ∀ g, g.ext = [] → (penOf g).seen b = sh.pen.seen b →
      (f g).ext = [] ∧ (penOf (f g)).seen b = sh'.pen.seen b ∧ (figures (k g)).map (·.seen b) = figs.map (·.seen b)) :
    SheetOK b wd e (items ++ [i]) sh' := by
  obtain ⟨r, own, h2, h3, h4, h5, h6, h7, h8⟩ := h
  obtain ⟨g1, g2, g3⟩ := h1 r.g h4 h6
  refine ⟨{ r with g := f r.g, marks := r.marks ++ k r.g }, own ++ figures (k r.g), .item i (k r.g) hi h2 (hr r h3) rfl, h3, g1, h5,
    g2, by rw [hs]; exact h7, ?_⟩
  rw [List.map_append, h8, hf, List.map_append, g3]

theorem seen_path {b : Bool} {k : PaintKind} {p : List Seg} {x y : Pen} {ext : List Nat} (h : x.seen b = y.seen b) :
    (Figure.path k p x ext).seen b = (Figure.path k p y ext).seen b := by
  cases b
  · simpa [Figure.seen, Figure.noFill, Pen.seen] using h
  · simp [Pen.seen] at h; rw [h]

theorem seen_ctm {b : Bool} {x y : Pen} (h : x.seen b = y.seen b) : x.ctm = y.ctm := by
  cases b <;> simp [Pen.seen] at h
  · exact h.2.2.2.1
  · rw [h]

/-- A parameter other than a colour changed on both sides. -/
theorem seen_fields {b : Bool} {x y : Pen} (h : x.seen b = y.seen b) : x.width = y.width ∧ x.dash = y.dash ∧
    x.stroke = y.stroke ∧ x.ctm = y.ctm ∧ x.clip = y.clip ∧ (b = true → x.fill = y.fill) := by
  cases b <;> simp [Pen.seen] at h
  · exact ⟨h.1, h.2.1, h.2.2.1, h.2.2.2.1, h.2.2.2.2, by simp⟩
  · subst h; simp

theorem seen_of {b : Bool} {x y : Pen} (h1 : x.width = y.width) (h2 : x.dash = y.dash) (h3 : x.stroke = y.stroke)
    (h4 : x.ctm = y.ctm) (h5 : x.clip = y.clip) (h6 : b = true → x.fill = y.fill) : x.seen b = y.seen b := by
  cases b <;> simp only [Pen.seen, if_true, Bool.false_eq_true, if_false, Pen.mk.injEq]
  · exact ⟨h1, h2, h3, trivial, h4, h5⟩
  · cases x; cases y; simp_all

/-- Text that leaves the fill colour alone (`b`) and paints glyphs only (`d`). -/
structure PlainText (b d : Bool) (t : TextItem) : Prop where
  style : d = true → t.fontStyle &&& 4 = 0
  border : d = true → t.opt.border &&& 15 = 0
  mode : b = true → t.inColour = false

theorem show_figures (wd : Widths) (g : GState) (f : Nat) (size : ℚ) : ∀ (l : List TextShow.Item) (pen : ℚ × ℚ),
    figures (show' wd g f size pen l).2 = [] := by
  intro l
  induction l with
  | nil => intro pen; rfl
  | cons a l ih => intro pen; cases a <;> simp [show', figures, figure] at * <;> apply ih

theorem no_bit {x : Nat} (h : x &&& 15 = 0) {k : Nat} (hk : 15 &&& k = k) (h0 : k ≠ 0) : has x k = false := by
  have : x &&& k = 0 := by rw [← hk, ← Nat.and_assoc, h, Nat.zero_and]
  simp [has, this]; exact Ne.symm h0

theorem runs_plain (wd : Widths) (e : Env) (t : TextItem) (hs : t.fontStyle &&& 4 = 0) (hbd : t.opt.border &&& 15 = 0) :
    Runs wd (textOps e t) (textAfter t)
      (fun g => (show' wd (textState t g) t.font t.fontSize (calX t, calY e t) (tjOf e t)).2) := by
  have hu : has t.fontStyle underline = false := by simp [has, underline, hs]
  have hb : borderOps t = [] := by
    simp [borderOps, no_bit hbd (k := top) rfl (by decide), no_bit hbd (k := left) rfl (by decide),
      no_bit hbd (k := right) rfl (by decide), no_bit hbd (k := bottom) rfl (by decide)]
  have hobj : Runs wd ([.BT, .Td (calX t) (calY e t), .Tf t.font t.fontSize, .Tc t.charSpacing] ++
      colourOps t ++ [.TJ (tjOf e t), .ET]) (fun g => baseState t g)
      (fun g => (show' wd (baseState t g) t.font t.fontSize (calX t, calY e t) (tjOf e t)).2) := by
    intro r hr
    have h := run_textObject wd r hr (calX t) (calY e t) t.font t.fontSize t.charSpacing
      (if t.inColour then t.colour.map (·.colour) else none) (tjOf e t)
    unfold baseState colourOps
    cases hb : t.inColour
    · simp only [hb, Bool.false_eq_true, if_false, Option.map_none, Option.toList_none, zero_add, Option.getD_none] at h ⊢
      exact h
    · cases hcol : t.colour with
      | none =>
        simp only [hb, hcol, if_true, Option.map_none, Option.toList_none, zero_add, Option.getD_none] at h ⊢
        exact h
      | some c =>
        simp only [hb, hcol, if_true, Option.map_some, Option.toList_some, zero_add, Option.getD_some] at h ⊢
        exact h
  by_cases hx : t.opt.ext = []
  · have : textOps e t = ([.BT, .Td (calX t) (calY e t), .Tf t.font t.fontSize, .Tc t.charSpacing] ++
        colourOps t ++ [.TJ (tjOf e t), .ET]) := by
      simp [textOps, hx, hu, hb]
    rw [this]
    refine Runs.congr hobj (fun g => ?_) (fun g => ?_)
    · simp [textAfter, textState, baseState, hx]
    · simp [textState, baseState, hx]
  · have hw := ((Runs.gs wd t.opt.ext).append hobj).wrap
    have : textOps e t = [.q] ++ (t.opt.ext.map Op.gs ++ ([.BT, .Td (calX t) (calY e t), .Tf t.font t.fontSize, .Tc t.charSpacing] ++
        colourOps t ++ [.TJ (tjOf e t), .ET])) ++ [.Q] := by
      simp [textOps, hx, hu, hb]
    rw [this]
    refine Runs.congr hw (fun g => ?_) (fun g => ?_)
    · simp [textAfter, hx]
    · simp [textState, baseState]

theorem textAfter_ext (t : TextItem) (g : GState) : (textAfter t g).ext = [] ↔ g.ext = [] := by
  unfold textAfter; split
  · next hx => simp [textState, hx]
  · rfl

theorem textAfter_pen {b d : Bool} {t : TextItem} (ht : PlainText b d t) (g : GState) :
    (penOf (textAfter t g)).seen b = (penOf g).seen b := by
  unfold textAfter; split
  · refine seen_of rfl rfl rfl rfl rfl (fun hb => ?_)
    simp [penOf, textState, ht.mode hb]
  · rfl

theorem SheetOK.text {b d : Bool} {wd : Widths} {e : Env} {items : List Item} {sh : Sheet} {t : TextItem}
    (h : SheetOK b wd e items sh) (ht : PlainText b d t) : SheetOK b wd e (items ++ [.text t]) sh := by
  obtain ⟨r, own, h2, h3, h4, h5, h6, h7, h8⟩ := h
  obtain ⟨k, hk, -⟩ := runs_text wd e t
  exact ⟨_, own, .text t _ h2 (hk r h3) rfl, h3, (textAfter_ext t r.g).2 h4, h5, by rw [textAfter_pen ht]; exact h6, h7, h8⟩

/-- Removing the text at the end again. -/
theorem SheetOK.untext {b d : Bool} {wd : Widths} {e : Env} {items : List Item} {sh : Sheet} {t : TextItem}
    (h : SheetOK b wd e (items ++ [.text t]) sh) (ht : PlainText b d t) : SheetOK b wd e items sh := by
  obtain ⟨r, own, h2, h3, h4, h5, h6, h7, h8⟩ := h
  generalize hl : items ++ [.text t] = l at h2
  cases h2 with
  | nil => simp at hl
  | item i new hi _ _ _ =>
    have := (List.append_inj' hl rfl).2
    simp at this
    exact absurd this.symm (hi t)
  | @text items' r0 _ _ t' new p1 h2 hm =>
    obtain ⟨rfl, ht'⟩ := List.append_inj' hl rfl
    simp at ht'; subst ht'
    have p2 : r0.level = .page := by
      by_contra hc
      have : run wd r0 (textOps e t) = none := by
        unfold textOps
        by_cases hx : t.opt.ext = []
        · simp [hx, run_cons, exec, hc]
        · simp [hx, run_cons, exec, hc]
      rw [this] at h2; simp at h2
    obtain ⟨k, hk, -⟩ := runs_text wd e t
    rw [hk r0 p2] at h2
    obtain rfl := Option.some.inj h2
    simp only [] at *
    exact ⟨r0, own, p1, p2, (textAfter_ext t r0.g).1 h4, h5, by rw [← h6, textAfter_pen ht], h7, h8⟩

/-- Undecorated texts paint no figures. -/
theorem Painted.exact {b : Bool} {wd : Widths} {e : Env} {items : List Item} {r : Reader} {own : List Figure}
    (h : Painted wd e items r own) (hl : ∀ t : TextItem, Item.text t ∈ items → PlainText b true t) : figures r.marks = own := by
  induction h with
  | nil => rfl
  | @text items' r0 r' _ t new h0 h2 hm ih =>
    have ht := hl t (by simp)
    have p2 : r0.level = .page := by
      by_contra hc
      have : Paint.run wd r0 (textOps e t) = none := by
        unfold textOps
        by_cases hx : t.opt.ext = []
        · simp [hx, run_cons, exec, hc]
        · simp [hx, run_cons, exec, hc]
      rw [this] at h2; simp at h2
    rw [runs_plain wd e t (ht.style rfl) (ht.border rfl) r0 p2] at h2
    obtain rfl := Option.some.inj h2
    simp only [figures_append, show_figures, List.append_nil]
    exact ih (fun t ht => hl t (by simp [ht]))
  | @item items' r0 r' own' i new hi h0 h2 hm ih =>
    rw [hm, figures_append, ih (fun t ht => hl t (by simp [ht]))]

/-- The item a call appends (if it is not a text). -/
def itemOf (e : Env) (H : ℚ) (ext : Option Nat) : Call → Option Item
  | .setGrayFill v => some (.gray false (fixRange10 v))
  | .setGrayStroke v => some (.gray true (fixRange10 v))
  | .setColour st r g b => some (.rgb st r g b)
  | .setColourCMYK st c m y k => some (.cmyk st c m y k)
  | .setLineWidth w => some (.lineWidth (toPoints e.cfg w))
  | .setLineType a b => some (.lineType a b)
  | .setCustomLineType a ph => some (.dash (a.map (toPoints e.cfg)) (toPoints e.cfg ph))
  | .setColourSpace n => some (.colourSpace n)
  | .line x1 y1 x2 y2 => some (.line H (toPoints e.cfg x1) (toPoints e.cfg y1) (toPoints e.cfg x2) (toPoints e.cfg y2) ext.toList)
  | .rectLower x y w h => some (.rectangle H (toPoints e.cfg x) (toPoints e.cfg y) (toPoints e.cfg w) (toPoints e.cfg h) .stroke [])
  | .rectUpper x y w h => some (.rectangle H (toPoints e.cfg x) (toPoints e.cfg y + toPoints e.cfg h) (toPoints e.cfg w)
      (toPoints e.cfg h) .stroke [])
  | .rectLowerOpt x y w h st tr => some (.rectangle H (toPoints e.cfg x) (toPoints e.cfg y) (toPoints e.cfg w)
      (toPoints e.cfg h) st (tr.getD ext).toList)
  | .rectUpperOpt x y w h st tr => some (.rectangle H (toPoints e.cfg x) (toPoints e.cfg y + toPoints e.cfg h)
      (toPoints e.cfg w) (toPoints e.cfg h) st (tr.getD ext).toList)
  | .oval x1 y1 x2 y2 => some (.oval H (toPoints e.cfg x1) (toPoints e.cfg y1) (toPoints e.cfg x2) (toPoints e.cfg y2))
  | .curve p0 p1 p2 p3 st => some (.curve H (toPoints e.cfg p0.1, toPoints e.cfg p0.2) (toPoints e.cfg p1.1, toPoints e.cfg p1.2)
      (toPoints e.cfg p2.1, toPoints e.cfg p2.2) (toPoints e.cfg p3.1, toPoints e.cfg p3.2) st)
  | .polygon pts st => some (.polygon H (pts.map fun p => (toPoints e.cfg p.1, toPoints e.cfg p.2)) st ext.toList)
  | .clipPolygon pts => some (.clipPolygon H (pts.map fun p => (toPoints e.cfg p.1, toPoints e.cfg p.2)))
  | .save => some .save
  | .restore => some .restore
  | .rotate a x y => some (.rotate H a (toPoints e.cfg x) (toPoints e.cfg y))
  | .rotateReset => some .rotateReset
  | .image i => some (.image { i with pageHeight := H })
  | .template sx sy tx ty name => some (.template H sx sy tx ty name)
  | _ => none

theorem clamp_eq (v : ℚ) : fixRange10 v = clamp v := by
  unfold fixRange10 clamp
  rcases lt_or_ge v 0 with h | h
  · rw [if_pos h, min_eq_right (by linarith), max_eq_left (by linarith)]
  · rw [if_neg (by linarith)]
    rcases lt_or_ge 1 v with h' | h'
    · rw [if_pos h', min_eq_left (by linarith), max_eq_right (by linarith)]
    · rw [if_neg (by linarith), min_eq_right h', max_eq_right h]

theorem rotMat_eq (e : Env) (x y a h : ℚ) : rotMat e x y a h = rotation (e.cos a) (e.sin a) (x, h - y) := by
  simp only [rotMat, rotation, Mat.mul, Mat.mk.injEq]
  refine ⟨?_, ?_, ?_, ?_, ?_, ?_⟩ <;> ring

theorem chain_eq (cfg : Units.Cfg) (h : ℚ) (pts : List (ℚ × ℚ)) :
    segs h (pts.map fun p => (toPoints cfg p.1, toPoints cfg p.2)) = chain (pts.map (toPage cfg h)) := by
  cases pts with
  | nil => rfl
  | cons p pts => simp [segs, chain, toPage]

/-- The unflipped, unrotated place and the flip together. -/
theorem place_flip (i : ImageItem) : i.place.mul (if i.horizontalFlip || i.verticalFlip then i.flipMat else Mat.one) =
    unitToBox (i.x - (cropOffset i).1) (i.pageHeight - i.y + (cropOffset i).2 - i.rect.h) i.rect.w i.rect.h
      i.horizontalFlip i.verticalFlip := by
  unfold ImageItem.place ImageItem.flipMat cropOffset unitToBox
  cases i.horizontalFlip <;> cases i.verticalFlip <;> cases i.crop <;>
    simp [Mat.mul, Mat.one] <;> (try constructor) <;> ring

theorem Mat.one_mul (m : Mat) : Mat.one.mul m = m := by
  cases m; simp [Mat.mul, Mat.one]
theorem Mat.mul_one (m : Mat) : m.mul Mat.one = m := by
  cases m; simp [Mat.mul, Mat.one]

theorem image_ctm (e : Env) (i : ImageItem) (hm : MaskUpright (.image i)) (g : GState) :
    (let g1 := if i.withMask then g else { g with ctm :=
      (rotMat e (i.x + i.cropSize.1 / 2) (i.y + i.cropSize.2 / 2) i.imageAngle i.pageHeight).mul g.ctm }
    i.place.mul (imageState e i g1).ctm) = (imageMatrix e i.pageHeight i).mul g.ctm := by
  have key : ∀ m : Mat, i.place.mul (if i.horizontalFlip || i.verticalFlip then i.flipMat.mul m else m) =
      (unitToBox (i.x - (cropOffset i).1) (i.pageHeight - i.y + (cropOffset i).2 - i.rect.h) i.rect.w i.rect.h
      i.horizontalFlip i.verticalFlip).mul m := by
    intro m
    rw [← place_flip]
    by_cases hf : (i.horizontalFlip || i.verticalFlip) = true
    · rw [if_pos hf, if_pos hf, Content.Mat.mul_assoc]
    · rw [if_neg hf, if_neg hf, Mat.mul_one]
  have hs : i.cropSize = shown i := rfl
  cases hr : i.maskRotates
  · simp only [imageState, hr, Bool.false_eq_true, if_false]
    rw [key]
    unfold imageMatrix
    cases hw : i.withMask
    · simp only [Bool.false_eq_true, if_false, false_and]
      rw [rotMat_eq, ← Content.Mat.mul_assoc, hs]
    · have h0 : i.maskAngle + i.imageAngle = 0 := by simpa [ImageItem.maskRotates, hw] using hr
      simp only [if_true, h0, and_self, Mat.mul_one]
  · have hr' := hr
    simp only [ImageItem.maskRotates, Bool.and_eq_true, bne_iff_ne, ne_eq] at hr'
    obtain ⟨hw, h0⟩ := hr'
    obtain ⟨f1, f2, f3⟩ := (hm hw).resolve_left h0
    have hsh : shown i = (i.rect.w, i.rect.h) := by simp [shown, f3]
    have key := key Mat.one
    simp only [f1, f2, Bool.or_self, Bool.false_eq_true, if_false, Mat.mul_one] at key
    simp only [imageState, hr, if_true, hw, f1, f2, Bool.or_self, Bool.false_eq_true, if_false, imageMatrix, h0, and_false, hsh]
    rw [rotMat_eq, ← Content.Mat.mul_assoc, key]

theorem push_pen {b : Bool} {wd : Widths} {e : Env} {items : List Item} {sh : Sheet} (h : SheetOK b wd e items sh) (i : Item)
    (hi : ∀ t, i ≠ .text t) (f : GState → GState) (hr : Runs wd (ops e i) f (fun _ => [])) (p : Pen)
    (h1 : ∀ g, g.ext = [] → (penOf g).seen b = sh.pen.seen b → (f g).ext = [] ∧ (penOf (f g)).seen b = p.seen b) :
    SheetOK b wd e (items ++ [i]) { sh with pen := p } :=
  h.push hi hr rfl [] (by simp) (fun g h2 h3 => ⟨(h1 g h2 h3).1, (h1 g h2 h3).2, rfl⟩)

theorem push_fig {b : Bool} {wd : Widths} {e : Env} {items : List Item} {sh : Sheet} {i : Item} {k : GState → List Mark}
    (h : SheetOK b wd e items sh) (hi : ∀ t, i ≠ .text t) (hr : Runs wd (ops e i) (fun g => g) k) (fig : Figure)
    (h1 : ∀ g, g.ext = [] → (penOf g).seen b = sh.pen.seen b → (figures (k g)).map (·.seen b) = [fig.seen b]) :
    SheetOK b wd e (items ++ [i]) { sh with figs := sh.figs ++ [fig] } :=
  h.push hi hr rfl [fig] rfl (fun g h2 h3 => ⟨h2, h3, h1 g h2 h3⟩)

/-- Save, and rotate. -/
theorem SheetOK.save {b : Bool} {wd : Widths} {e : Env} {items : List Item} {sh : Sheet} {i : Item} {o : List Op}
    {f : GState → GState} (h : SheetOK b wd e items sh) (hit : ∀ t, i ≠ .text t) (hi : ops e i = .q :: o) (hr : Runs wd o f (fun _ => [])) (p : Pen)
    (h1 : ∀ g, g.ext = [] → (penOf g).seen b = sh.pen.seen b → (f g).ext = [] ∧ (penOf (f g)).seen b = p.seen b) :
    SheetOK b wd e (items ++ [i]) { sh with saved := sh.pen :: sh.saved, pen := p } := by
  obtain ⟨r, own, h2, h3, h4, h5, h6, h7, h8⟩ := h
  obtain ⟨g1, g2⟩ := h1 r.g h4 h6
  refine ⟨{ r with g := f r.g, stack := r.g :: r.stack }, own ++ figures [], .item i [] hit h2 ?_ (by simp), h3, g1, ?_, g2, ?_,
    by simpa [figures] using h8⟩
  · rw [hi, run_cons]
    simp only [exec, h3, if_true, Option.bind_some]
    rw [hr _ rfl]; simp
  · intro g hg; rcases List.mem_cons.1 hg with rfl | hg
    · exact h4
    · exact h5 g hg
  · simp only [List.map_cons, h7, h6]

theorem SheetOK.restore {b : Bool} {wd : Widths} {e : Env} {items : List Item} {sh : Sheet} {i : Item} {p : Pen} {rest : List Pen}
    (h : SheetOK b wd e items sh) (hit : ∀ t, i ≠ .text t) (hi : ops e i = [.Q]) (hs : sh.saved = p :: rest) :
    SheetOK b wd e (items ++ [i]) { sh with pen := p, saved := rest } := by
  obtain ⟨r, own, h2, h3, h4, h5, h6, h7, h8⟩ := h
  rw [hs, List.map_cons] at h7
  cases hst : r.stack with
  | nil => rw [hst] at h7; simp at h7
  | cons g st =>
    rw [hst] at h7 h5
    simp only [List.map_cons, List.cons.injEq] at h7
    refine ⟨{ r with g := g, stack := st }, own ++ figures [], .item i [] hit h2 ?_ (by simp), h3, h5 g (by simp),
      fun x hx => h5 x (by simp [hx]), h7.1, h7.2, by simpa [figures] using h8⟩
    rw [hi, run_cons]
    simp [exec, h3, hst, run]

/-- A call on a page and on its sheet. -/
theorem SheetOK.call {b : Bool} {wd : Widths} {e : Env} {items : List Item} {sh sh' : Sheet} {tr : Option Nat} {k : Call} {i : Item}
    (h : SheetOK b wd e items sh) (hk : MaskUpright k) (hc : sh.call e tr k = some sh') (hi : itemOf e sh.height tr k = some i) :
    SheetOK b wd e (items ++ [i]) sh' ∧ sh'.height = sh.height := by
  have fig1 : ∀ {kind : PaintKind} {p : List Seg} {ext : List Nat} {g : GState}, g.ext = [] → (penOf g).seen b = sh.pen.seen b →
      (figures [Mark.shape kind p { g with ext := g.ext ++ ext }]).map (·.seen b) = [(Figure.path kind p sh.pen ext).seen b] := by
    intro kind p ext g hx hp
    simp only [figures, List.filterMap_cons, figure, List.filterMap_nil, List.map_cons, List.map_nil, hx, List.nil_append]
    congr 1
    exact seen_path hp
  have fig0 : ∀ {kind : PaintKind} {p : List Seg} {g : GState}, g.ext = [] → (penOf g).seen b = sh.pen.seen b →
      (figures [Mark.shape kind p g]).map (·.seen b) = [(Figure.path kind p sh.pen []).seen b] := by
    intro kind p g hx hp
    simp only [figures, List.filterMap_cons, figure, List.filterMap_nil, List.map_cons, List.map_nil, hx]
    congr 1
    exact seen_path hp
  cases k with
  | addPage | setPage | setX | setY | setXY | br | setFont | setFontSize | setCharSpacing | setTextColour
  | setTransparency | text | cell | cellWithOption => simp [itemOf] at hi
  | setLineWidth w =>
    simp only [itemOf, Option.some.injEq, Sheet.call] at hi hc; subst hi hc
    refine ⟨push_pen h _ (by simp) (fun g => { g with lineWidth := toPoints e.cfg w }) (Runs.state (fun _ => rfl)) _ (fun g h1 h2 => ⟨h1, ?_⟩), rfl⟩
    obtain ⟨a1, a2, a3, a4, a5, a6⟩ := seen_fields h2
    exact seen_of rfl a2 a3 a4 a5 a6
  | setLineType a c =>
    simp only [itemOf, Option.some.injEq, Sheet.call] at hi hc; subst hi hc
    have key : ∀ (l : List ℚ) (ph : ℚ), ops e (.lineType a c) = [.d l ph] →
        SheetOK b wd e (items ++ [.lineType a c]) { sh with pen := { sh.pen with dash := (l, ph) } } := by
      intro l ph ho
      refine push_pen h _ (by simp) (fun g => { g with dash := (l, ph) }) (by rw [ho]; exact Runs.state (fun _ => rfl)) _
        (fun g h1 h2 => ⟨h1, ?_⟩)
      obtain ⟨a1, a2, a3, a4, a5, a6⟩ := seen_fields h2
      exact seen_of a1 rfl a3 a4 a5 a6
    cases a <;> cases c <;> exact ⟨key _ _ rfl, rfl⟩
  | setCustomLineType l ph =>
    simp only [itemOf, Option.some.injEq, Sheet.call] at hi hc; subst hi hc
    refine ⟨push_pen h _ (by simp) (fun g => { g with dash := (l.map (toPoints e.cfg), toPoints e.cfg ph) }) (Runs.state (fun _ => rfl)) _
      (fun g h1 h2 => ⟨h1, ?_⟩), rfl⟩
    obtain ⟨a1, a2, a3, a4, a5, a6⟩ := seen_fields h2
    exact seen_of a1 rfl a3 a4 a5 a6
  | setGrayFill v =>
    simp only [itemOf, Option.some.injEq, Sheet.call] at hi hc; subst hi hc
    refine ⟨push_pen h _ (by simp) (fun g => { g with fill := .gray (fixRange10 v) }) (Runs.state (fun _ => rfl)) _
      (fun g h1 h2 => ⟨h1, ?_⟩), rfl⟩
    obtain ⟨a1, a2, a3, a4, a5, a6⟩ := seen_fields h2
    exact seen_of a1 a2 a3 a4 a5 (fun _ => by simp only [penOf, clamp_eq])
  | setGrayStroke v =>
    simp only [itemOf, Option.some.injEq, Sheet.call] at hi hc; subst hi hc
    refine ⟨push_pen h _ (by simp) (fun g => { g with stroke := .gray (fixRange10 v) }) (Runs.state (fun _ => rfl)) _
      (fun g h1 h2 => ⟨h1, ?_⟩), rfl⟩
    obtain ⟨a1, a2, a3, a4, a5, a6⟩ := seen_fields h2
    exact seen_of a1 a2 (by simp only [penOf, clamp_eq]) a4 a5 a6
  | setColour st r g' bl =>
    cases st
    · simp only [itemOf, Option.some.injEq, Sheet.call] at hi hc; subst hi hc
      refine ⟨push_pen h _ (by simp) (fun g => { g with fill := rgbColour r g' bl }) (Runs.state (fun _ => rfl)) _
        (fun g h1 h2 => ⟨h1, ?_⟩), rfl⟩
      obtain ⟨a1, a2, a3, a4, a5, a6⟩ := seen_fields h2
      exact seen_of a1 a2 a3 a4 a5 (fun _ => rfl)
    · simp only [itemOf, Option.some.injEq, Sheet.call] at hi hc; subst hi hc
      refine ⟨push_pen h _ (by simp) (fun g => { g with stroke := rgbColour r g' bl }) (Runs.state (fun _ => rfl)) _
        (fun g h1 h2 => ⟨h1, ?_⟩), rfl⟩
      obtain ⟨a1, a2, a3, a4, a5, a6⟩ := seen_fields h2
      exact seen_of a1 a2 rfl a4 a5 a6
  | setColourCMYK st c m y k =>
    cases st
    · simp only [itemOf, Option.some.injEq, Sheet.call] at hi hc; subst hi hc
      refine ⟨push_pen h _ (by simp) (fun g => { g with fill := cmykColour c m y k }) (Runs.state (fun _ => rfl)) _
        (fun g h1 h2 => ⟨h1, ?_⟩), rfl⟩
      obtain ⟨a1, a2, a3, a4, a5, a6⟩ := seen_fields h2
      exact seen_of a1 a2 a3 a4 a5 (fun _ => rfl)
    · simp only [itemOf, Option.some.injEq, Sheet.call] at hi hc; subst hi hc
      refine ⟨push_pen h _ (by simp) (fun g => { g with stroke := cmykColour c m y k }) (Runs.state (fun _ => rfl)) _
        (fun g h1 h2 => ⟨h1, ?_⟩), rfl⟩
      obtain ⟨a1, a2, a3, a4, a5, a6⟩ := seen_fields h2
      exact seen_of a1 a2 rfl a4 a5 a6
  | setColourSpace n =>
    simp only [itemOf, Option.some.injEq, Sheet.call] at hi hc; subst hi hc
    refine ⟨push_pen h _ (by simp) (fun g => { g with stroke := .named (n + 1) }) (Runs.state (fun _ => rfl)) _
      (fun g h1 h2 => ⟨h1, ?_⟩), rfl⟩
    obtain ⟨a1, a2, a3, a4, a5, a6⟩ := seen_fields h2
    exact seen_of a1 a2 rfl a4 a5 a6
  | save =>
    simp only [itemOf, Option.some.injEq, Sheet.call] at hi hc; subst hi hc
    exact ⟨h.save (o := []) (by simp) rfl Runs.nil sh.pen (fun g h1 h2 => ⟨h1, h2⟩), rfl⟩
  | rotate a x y =>
    simp only [itemOf, Option.some.injEq, Sheet.call] at hi hc; subst hi hc
    refine ⟨h.save (o := rotateOps e (toPoints e.cfg x) (toPoints e.cfg y) a sh.height) (by simp) rfl (Runs.rotate wd e _ _ _ _) _
      (fun g h1 h2 => ⟨h1, ?_⟩), rfl⟩
    obtain ⟨a1, a2, a3, a4, a5, a6⟩ := seen_fields h2
    exact seen_of a1 a2 a3 (by simp only [penOf] at a4 ⊢; rw [rotMat_eq, a4]; rfl) a5 a6
  | restore =>
    simp only [itemOf, Option.some.injEq, Sheet.call] at hi hc; subst hi
    split at hc
    · next p rest hs => obtain rfl := Option.some.inj hc; exact ⟨h.restore (by simp) rfl hs, rfl⟩
    · simp at hc
  | rotateReset =>
    simp only [itemOf, Option.some.injEq, Sheet.call] at hi hc; subst hi
    split at hc
    · next p rest hs => obtain rfl := Option.some.inj hc; exact ⟨h.restore (by simp) rfl hs, rfl⟩
    · simp at hc
  | clipPolygon pts =>
    simp only [itemOf, Option.some.injEq, Sheet.call] at hi hc; subst hi
    split at hc
    · simp at hc
    · next hne =>
      obtain rfl := Option.some.inj hc
      have hne' : (pts.map fun p => (toPoints e.cfg p.1, toPoints e.cfg p.2)) ≠ [] := by simpa using hne
      have hr : Runs wd (ops e (.clipPolygon sh.height (pts.map fun p => (toPoints e.cfg p.1, toPoints e.cfg p.2))))
          (fun g => { g with clip := g.clip ++ [(g.ctm, chain (pts.map (toPage e.cfg sh.height)) ++ [.close], false)] }) (fun _ => []) := by
        intro r hr
        simp only [ops]
        rw [run_append, run_path wd _ _ hne' r hr, chain_eq]
        simp [run_cons, run, exec, exec.extend, exec.finish, hr]
      refine ⟨push_pen h _ (by simp) _ hr _ (fun g h1 h2 => ⟨h1, ?_⟩), rfl⟩
      obtain ⟨a1, a2, a3, a4, a5, a6⟩ := seen_fields h2
      refine seen_of a1 a2 a3 a4 ?_ a6
      simp only [penOf] at a4 a5 ⊢
      rw [a4, a5]
  | line x1 y1 x2 y2 =>
    simp only [itemOf, Option.some.injEq, Sheet.call] at hi hc; subst hi hc
    exact ⟨push_fig h (by simp) (runs_line wd e _ _ _ _ _ _) _ (fun g h1 h2 => fig1 h1 h2), rfl⟩
  | rectLower x y w ht =>
    simp only [itemOf, Option.some.injEq, Sheet.call] at hi hc; subst hi hc
    exact ⟨push_fig h (by simp) (runs_rectangle wd e _ _ _ _ _ _ _) _ (fun g h1 h2 => fig1 h1 h2), rfl⟩
  | rectUpper x y w ht =>
    simp only [itemOf, Option.some.injEq, Sheet.call] at hi hc; subst hi hc
    exact ⟨push_fig h (by simp) (runs_rectangle wd e _ _ _ _ _ _ _) _ (fun g h1 h2 => by
      simp only [box, toPage, toPoints_lin]; exact fig1 h1 h2), rfl⟩
  | rectLowerOpt x y w ht st t =>
    simp only [itemOf, Option.some.injEq, Sheet.call] at hi hc; subst hi hc
    exact ⟨push_fig h (by simp) (runs_rectangle wd e _ _ _ _ _ _ _) _ (fun g h1 h2 => fig1 h1 h2), rfl⟩
  | rectUpperOpt x y w ht st t =>
    simp only [itemOf, Option.some.injEq, Sheet.call] at hi hc; subst hi hc
    exact ⟨push_fig h (by simp) (runs_rectangle wd e _ _ _ _ _ _ _) _ (fun g h1 h2 => by
      simp only [box, toPage, toPoints_lin]; exact fig1 h1 h2), rfl⟩
  | oval x1 y1 x2 y2 =>
    simp only [itemOf, Option.some.injEq, Sheet.call] at hi hc; subst hi hc
    refine ⟨push_fig (i := .oval sh.height (toPoints e.cfg x1) (toPoints e.cfg y1) (toPoints e.cfg x2) (toPoints e.cfg y2)) h (by simp) (Runs.curves wd _ _ _ _ _ _ _ _ _ _ _ _ _) _ (fun g h1 h2 => ?_), rfl⟩
    refine (fig0 h1 h2).trans ?_
    congr 3
    simp only [ellipse, toPage, toPoints_half, toPoints_lin, toPoints_sub, List.cons.injEq, Seg.move.injEq, Seg.curve.injEq,
      Prod.mk.injEq, and_true]
    refine ⟨⟨?_, ?_⟩, ⟨⟨?_, ?_⟩, ⟨?_, ?_⟩, ?_, ?_⟩, ⟨⟨?_, ?_⟩, ⟨?_, ?_⟩, ?_, ?_⟩, ⟨⟨?_, ?_⟩, ⟨?_, ?_⟩, ?_, ?_⟩, ⟨?_, ?_⟩, ⟨?_, ?_⟩, ?_, ?_⟩ <;> ring
  | curve p0 p1 p2 p3 st =>
    simp only [itemOf, Option.some.injEq, Sheet.call] at hi hc; subst hi hc
    exact ⟨push_fig h (by simp) (runs_curve wd e _ _ _ _ _ _) _ (fun g h1 h2 => fig0 h1 h2), rfl⟩
  | polygon pts st =>
    simp only [itemOf, Option.some.injEq, Sheet.call] at hi hc; subst hi
    split at hc
    · simp at hc
    · next hne =>
      obtain rfl := Option.some.inj hc
      have hne' : (pts.map fun p => (toPoints e.cfg p.1, toPoints e.cfg p.2)) ≠ [] := by simpa using hne
      refine ⟨push_fig h (by simp) (runs_polygon wd e _ _ _ _ hne') _ (fun g h1 h2 => ?_), rfl⟩
      refine (fig1 h1 h2).trans ?_
      congr 3
      rw [chain_eq]
      cases st <;> simp
  | image i =>
    simp only [itemOf, Option.some.injEq, Sheet.call] at hi hc; subst hi hc
    refine ⟨push_fig (i := .image { i with pageHeight := sh.height }) h (by simp) (runs_image wd e { i with pageHeight := sh.height }) _ (fun g h1 h2 => ?_), rfl⟩
    have hx := image_ctm e { i with pageHeight := sh.height } hk g
    have hm : imageMatrix e sh.height { i with pageHeight := sh.height } = imageMatrix e sh.height i := rfl
    have hg : g.ctm = sh.pen.ctm := seen_ctm h2
    simp only [hm] at hx
    simp only [figures, List.filterMap_cons, figure, List.filterMap_nil, List.map_cons, List.map_nil]
    congr 2
    simp only [Figure.image.injEq]
    refine ⟨trivial, hx.trans (by rw [hg]), ?_⟩
    cases hw : i.withMask <;> simp [imageState, h1, hw]
  | template sx sy tx ty name =>
    simp only [itemOf, Option.some.injEq, Sheet.call] at hi hc; subst hi hc
    refine ⟨push_fig h (by simp) (runs_template wd e _ _ _ _ _ _) _ (fun g h1 h2 => ?_), rfl⟩
    have hg : g.ctm = sh.pen.ctm := seen_ctm h2
    simp only [figures, List.filterMap_cons, figure, List.filterMap_nil, List.map_cons, List.map_nil, hg]
    rw [add_comm ty]

/-! ### The whole history -/

/-- The document and the canvas. -/
structure Sim (b d : Bool) (wd : Widths) (e : Env) (s : St) (c : Canvas) : Prop where
  len : s.pages.length = c.sheets.length
  cur : s.page = c.cur
  lt : c.cur < c.sheets.length
  trans : s.cur.ext = c.trans
  height : ∀ sh, c.sheets[c.cur]? = some sh → sh.height = s.cur.pageHeight
  sheets : ∀ (n : Nat) (sh : Sheet), c.sheets[n]? = some sh → SheetOK b wd e (s.pages.getD n []) sh
  style : d = true → s.cur.fontStyle &&& 4 = 0
  mode : b = true → s.cur.inColour = false
  texts : ∀ n, ∀ t : TextItem, Item.text t ∈ s.pages.getD n [] → PlainText b d t

/-- The current page and its sheet changed. -/
theorem Sim.update {b d : Bool} {wd : Widths} {e : Env} {s s' : St} {c : Canvas} {sh sh' : Sheet} {items : List Item}
    (h : Sim b d wd e s c) (hsh : c.sheets[c.cur]? = some sh)
    (hp : s'.pages = s.pages.set s.page items) (hg : s'.page = s.page) (hx : s'.cur.ext = s.cur.ext)
    (hh : s'.cur.pageHeight = s.cur.pageHeight) (hst : d = true → s'.cur.fontStyle &&& 4 = 0) (hm : b = true → s'.cur.inColour = false)
    (hht : sh'.height = sh.height) (hok : SheetOK b wd e items sh')
    (ht : ∀ t : TextItem, Item.text t ∈ items → PlainText b d t) :
    Sim b d wd e s' { c with sheets := c.sheets.set c.cur sh' } := by
  have hl : s.page < s.pages.length := by rw [h.cur, h.len]; exact h.lt
  refine ⟨?_, ?_, ?_, ?_, ?_, ?_, hst, hm, ?_⟩
  · rw [hp]; simp [h.len]
  · rw [hg]; exact h.cur
  · simpa using h.lt
  · rw [hx]; exact h.trans
  · intro sh1 h1
    simp only [List.getElem?_set, if_true, h.lt] at h1
    obtain rfl := Option.some.inj h1
    rw [hht, hh]; exact h.height _ hsh
  · intro n sh1 h1
    rw [hp, getD_set _ _ _ _ hl]
    simp only [List.getElem?_set] at h1
    by_cases hn : s.page = n
    · rw [if_pos hn]
      rw [if_pos (by rw [← hn, h.cur]), if_pos h.lt] at h1
      obtain rfl := Option.some.inj h1; exact hok
    · rw [if_neg hn]
      rw [if_neg (by rw [← h.cur]; exact hn)] at h1
      exact h.sheets n sh1 h1
  · intro n t
    rw [hp, getD_set _ _ _ _ hl]
    split
    · exact ht t
    · exact h.texts n t

theorem Sim.addText {b d : Bool} {wd : Widths} {e : Env} {s s' : St} {c : Canvas} {t : TextItem} {text : List Nat}
    (h : Sim b d wd e s c) (ht : PlainText b d t) (hs : s.addText e t text = some s') : Sim b d wd e s' c := by
  obtain ⟨x, y, hcur⟩ := addText_cur hs
  unfold St.addText at hs
  split at hs
  · simp at hs
  next items x' y' hap =>
  obtain ⟨sh, hsh⟩ : ∃ sh, c.sheets[c.cur]? = some sh := ⟨_, List.getElem?_eq_getElem h.lt⟩
  have hc : c = { c with sheets := c.sheets.set c.cur sh } := by
    rw [List.getElem?_eq_getElem h.lt] at hsh
    obtain rfl := Option.some.inj hsh
    cases c; simp
  obtain rfl := Option.some.inj hs
  rw [hc]
  have hok := h.sheets _ _ hsh
  rw [← h.cur] at hok
  obtain ⟨pre, c', u, hcase, hext, rfl, -, -⟩ := append_cases hap
  obtain ⟨w, hw⟩ : ∃ w, createContent (e.fonts c'.font) (c'.text ++ text) c'.fontSize c'.charSpacing c'.rectangle = some w ∧
      u = { c' with text := c'.text ++ text, cellWidth := w.1, cellHeight := w.2.1, textWidth := w.2.2 } := by
    unfold extend at hext
    obtain ⟨w, h1, h2⟩ := Option.map_eq_some_iff.1 hext
    exact ⟨w, h1, h2.symm⟩
  have hpre : SheetOK b wd e pre sh ∧ PlainText b d c' ∧ ∀ t : TextItem, Item.text t ∈ pre → PlainText b d t := by
    rcases hcase with ⟨h1, -⟩ | ⟨h1, rfl, -⟩
    · have hp : PlainText b d c' := h.texts s.page c' (by rw [h1]; simp)
      rw [h1] at hok
      exact ⟨hok.untext hp, hp, fun t ht => h.texts s.page t (by rw [h1]; simp [ht])⟩
    · rw [h1] at hok
      exact ⟨hok, ht, fun t ht => h.texts s.page t (by rw [h1]; exact ht)⟩
  have hu : PlainText b d u := by rw [hw.2]; exact ⟨hpre.2.1.style, hpre.2.1.border, hpre.2.1.mode⟩
  refine h.update hsh rfl rfl rfl rfl h.style h.mode rfl (hpre.1.text hu) (fun t ht => ?_)
  rw [List.mem_append, List.mem_singleton] at ht
  rcases ht with ht | ht
  · exact hpre.2.2 t ht
  · obtain rfl := Item.text.inj ht; exact hu

/-- The calls of the theorem. -/
structure Fine (b d : Bool) (k : Call) : Prop where
  plain : d = true → Undecorated k
  mask : MaskUpright k
  mode : b = true → ∀ c, k ≠ .setTextColour c

theorem Sim.item {b d : Bool} {wd : Widths} {e : Env} {s s' : St} {c c' : Canvas} {k : Call} {i : Item}
    (h : Sim b d wd e s c) (hk : MaskUpright k) (hi : itemOf e s.cur.pageHeight s.cur.ext k = some i)
    (hc : (c.on fun sh => sh.call e c.trans k) = some c')
    (hp : s'.pages = s.pages.modify s.page (· ++ [i])) (hg : s'.page = s.page) (hx : s'.cur.ext = s.cur.ext)
    (hh : s'.cur.pageHeight = s.cur.pageHeight) (hst : s'.cur.fontStyle = s.cur.fontStyle)
    (hm : b = true → s'.cur.inColour = false) (ht : ∀ t, i ≠ .text t) : Sim b d wd e s' c' := by
  unfold Canvas.on at hc
  split at hc
  · simp at hc
  next sh hsh =>
  obtain ⟨sh', h1, rfl⟩ := Option.map_eq_some_iff.1 hc
  have hok := h.sheets _ _ hsh
  rw [← h.cur] at hok
  rw [← h.height _ hsh, h.trans] at hi
  obtain ⟨h2, h3⟩ := hok.call hk h1 hi
  refine h.update hsh (by rw [hp, modify_eq_set]) hg hx hh (by rw [hst]; exact h.style) hm h3 h2 (fun t h4 => ?_)
  rw [List.mem_append, List.mem_singleton] at h4
  rcases h4 with h4 | h4
  · exact h.texts _ t h4
  · exact absurd h4.symm (ht t)

theorem canvas_keep {e : Env} {c c' : Canvas} {k : Call} (hk : ∀ sh : Sheet, sh.call e c.trans k = some sh)
    (hc : (c.on fun sh => sh.call e c.trans k) = some c') : c' = c := by
  unfold Canvas.on at hc
  split at hc
  · simp at hc
  next sh hsh =>
  simp only [hk, Option.map_some] at hc
  obtain rfl := Option.some.inj hc
  obtain ⟨hl, rfl⟩ := List.getElem?_eq_some_iff.1 hsh
  cases c; simp

theorem Sim.step {b d : Bool} {wd : Widths} {e : Env} {s s' : St} {c c' : Canvas} {k : Call} (h : Sim b d wd e s c) (hf : Fine b d k)
    (hturn : ∀ n, k = .setPage n → ∀ sh sh' : Sheet, c.sheets[c.cur]? = some sh → c.sheets[n]? = some sh' → sh'.height = sh.height)
    (hs : Content.step e s k = some s') (hc : c.call e k = some c') : Sim b d wd e s' c' := by
  obtain ⟨f1, f2, f3⟩ := hf
  have plain : ∀ cell rect opt, (d = true → opt.border &&& 15 = 0) → PlainText b d (newText s.cur cell rect opt) :=
    fun cell rect opt ho => ⟨h.style, ho, h.mode⟩
  have keep : ∀ {s' : St}, s'.pages = s.pages → s'.page = s.page → s'.cur.ext = s.cur.ext → s'.cur.pageHeight = s.cur.pageHeight →
      (d = true → s'.cur.fontStyle &&& 4 = 0) → (b = true → s'.cur.inColour = false) → Sim b d wd e s' c := by
    intro s' h1 h2 h3 h4 h5 h6
    refine ⟨by rw [h1]; exact h.len, by rw [h2]; exact h.cur, h.lt, by rw [h3]; exact h.trans, by rw [h4]; exact h.height,
      by rw [h1]; exact h.sheets, h5, h6, by rw [h1]; exact h.texts⟩
  cases k with
  | addPage ht =>
    simp only [Content.step, Canvas.call, Option.some.injEq] at hs hc; subst hs hc
    refine ⟨by simp [h.len], h.len, by simp, h.trans, ?_, ?_, h.style, h.mode, ?_⟩
    · intro sh h1; simp at h1; rw [← h1]
    · intro n sh h1
      rw [getD_append_nil]
      rw [List.getElem?_append] at h1
      split at h1
      · exact h.sheets n sh h1
      · next hn =>
        have : s.pages.getD n [] = [] := by
          rw [List.getD_eq_getElem?_getD, List.getElem?_eq_none (by rw [h.len]; omega)]; rfl
        rw [this]
        have : n - c.sheets.length = 0 := by
          have := (List.getElem?_eq_some_iff.1 h1).1; simp at this; omega
        rw [this] at h1; simp at h1; subst h1
        exact SheetOK.empty b wd e ht
    · intro n t; rw [getD_append_nil]; exact h.texts n t
  | setPage n =>
    simp only [Content.step, Canvas.call, Option.some.injEq] at hs hc; subst hs hc
    by_cases hn : n < s.pages.length
    · have hn' : n < c.sheets.length := by rw [← h.len]; exact hn
      rw [if_pos hn, if_pos hn']
      refine ⟨h.len, rfl, hn', h.trans, fun sh h1 => ?_, h.sheets, h.style, h.mode, h.texts⟩
      obtain ⟨sh0, hsh⟩ : ∃ sh, c.sheets[c.cur]? = some sh := ⟨_, List.getElem?_eq_getElem h.lt⟩
      rw [hturn n rfl sh0 sh hsh h1]; exact h.height _ hsh
    · rw [if_neg hn, if_neg (by rw [← h.len]; exact hn)]; exact h
  | setTransparency n =>
    simp only [Content.step, Canvas.call, Option.some.injEq] at hs hc; subst hs hc
    exact ⟨h.len, h.cur, h.lt, rfl, h.height, h.sheets, h.style, h.mode, h.texts⟩
  | setX | setY | setXY | br | setFontSize | setCharSpacing =>
    simp only [Content.step, Option.some.injEq] at hs; subst hs
    obtain rfl := canvas_keep (fun _ => rfl) hc
    exact keep rfl rfl rfl rfl h.style h.mode
  | setFont f st size =>
    simp only [Content.step, Option.some.injEq] at hs; subst hs
    obtain rfl := canvas_keep (fun _ => rfl) hc
    exact keep rfl rfl rfl rfl f1 h.mode
  | setTextColour col =>
    simp only [Content.step, Option.some.injEq] at hs; subst hs
    obtain rfl := canvas_keep (fun _ => rfl) hc
    exact keep rfl rfl rfl rfl h.style (fun hb => absurd rfl (f3 hb col))
  | text t =>
    obtain rfl := canvas_keep (fun _ => rfl) hc
    exact h.addText (plain _ _ _ (fun _ => by simp)) hs
  | cell r t =>
    obtain rfl := canvas_keep (fun _ => rfl) hc
    exact h.addText (plain _ _ _ (fun _ => by simp)) hs
  | cellWithOption r t o tr =>
    obtain rfl := canvas_keep (fun _ => rfl) hc
    exact h.addText (plain _ _ { o with ext := o.ext ++ transOf s tr } f1) hs
  | setLineType a d =>
    simp only [Content.step, Option.some.injEq] at hs; subst hs
    exact h.item f2 rfl hc rfl rfl rfl rfl rfl h.mode (by intro t; cases a <;> cases d <;> simp)
  | setGrayFill v =>
    simp only [Content.step, Option.some.injEq] at hs; subst hs
    exact h.item f2 rfl hc rfl rfl rfl rfl rfl (fun _ => rfl) (by simp)
  | _ =>
    simp only [Content.step, Option.some.injEq] at hs; subst hs
    exact h.item f2 rfl hc rfl rfl rfl rfl rfl h.mode (by simp)

theorem Sim.steps {b d : Bool} {wd : Widths} {e : Env} : ∀ (calls : List Call) {s s' : St} {c c' : Canvas}, Sim b d wd e s c →
    (∀ k ∈ calls, Fine b d k) → LevelTurns e c calls → Content.steps e s calls = some s' → c.calls e calls = some c' →
    Sim b d wd e s' c' := by
  intro calls
  induction calls with
  | nil =>
    intro s s' c c' h _ _ h1 h2
    simp only [Content.steps, Canvas.calls, Option.some.injEq] at h1 h2
    subst h1 h2; exact h
  | cons k rest ih =>
    intro s s' c c' h hf ht h1 h2
    simp only [Content.steps, Canvas.calls] at h1 h2
    obtain ⟨s1, h3, h1⟩ := Option.bind_eq_some_iff.1 h1
    obtain ⟨c1, h4, h2⟩ := Option.bind_eq_some_iff.1 h2
    exact ih (h.step (hf k (by simp)) ht.1 h3 h4) (fun k hk => hf k (by simp [hk])) (ht.2 c1 h4) h1 h2

theorem Sim.start (b d : Bool) (wd : Widths) (e : Env) (height ml mt : ℚ) : Sim b d wd e (Content.start height ml mt) (blank height) := by
  refine ⟨rfl, rfl, by simp [blank], rfl, ?_, ?_, fun _ => by simp [Content.start], fun _ => rfl, ?_⟩
  · intro sh h; simp [blank] at h; subst h; rfl
  · intro n sh h
    obtain ⟨hn, h⟩ := List.getElem?_eq_some_iff.1 h
    simp [blank] at hn
    subst hn; simp [blank] at h; subst h
    exact SheetOK.empty b wd e height
  · intro n t ht
    simp [Content.start, List.getD_eq_getElem?_getD] at ht
    cases n <;> simp at ht

/-- Without going back, or with pages of one height. -/
theorem levelTurns_of_forward (e : Env) : ∀ (calls : List Call) (c : Canvas), (∀ k ∈ calls, ∀ n, k ≠ .setPage n) → LevelTurns e c calls
  | [], _, _ => trivial
  | k :: rest, c, h => ⟨fun n hn => absurd hn (h k (by simp) n), fun c' _ => levelTurns_of_forward e rest c' (fun k hk => h k (by simp [hk]))⟩

theorem sheet_height {e : Env} {tr : Option Nat} {sh sh' : Sheet} {k : Call} (h : sh.call e tr k = some sh') : sh'.height = sh.height := by
  cases k with
  | restore | rotateReset =>
    simp only [Sheet.call] at h
    split at h <;> simp only [Option.some.injEq, reduceCtorEq] at h
    subst h; rfl
  | clipPolygon | polygon =>
    simp only [Sheet.call] at h
    split at h <;> simp only [Option.some.injEq, reduceCtorEq] at h
    subst h; rfl
  | setColour st => cases st <;> simp only [Sheet.call, Option.some.injEq] at h <;> subst h <;> rfl
  | setColourCMYK st => cases st <;> simp only [Sheet.call, Option.some.injEq] at h <;> subst h <;> rfl
  | _ => simp only [Sheet.call, Option.some.injEq] at h; subst h; rfl

theorem heights_call {e : Env} {H : ℚ} {c c' : Canvas} {k : Call} (h : c.call e k = some c') (hc : ∀ sh ∈ c.sheets, sh.height = H)
    (hk : ∀ h, k = .addPage h → h = H) : ∀ sh ∈ c'.sheets, sh.height = H := by
  have key : (c.on fun sh => sh.call e c.trans k) = some c' → ∀ sh ∈ c'.sheets, sh.height = H := by
    intro h
    unfold Canvas.on at h
    split at h
    · simp at h
    next sh hsh =>
    obtain ⟨sh', h1, rfl⟩ := Option.map_eq_some_iff.1 h
    intro x hx
    rcases List.mem_or_eq_of_mem_set hx with hx | rfl
    · exact hc x hx
    · rw [sheet_height h1]; exact hc sh (List.mem_of_getElem? hsh)
  cases k with
  | addPage x =>
    simp only [Canvas.call, Option.some.injEq] at h; subst h
    intro sh hsh
    simp at hsh
    rcases hsh with hsh | rfl
    · exact hc sh hsh
    · exact hk x rfl
  | setPage n =>
    simp only [Canvas.call, Option.some.injEq] at h; subst h
    intro sh hsh
    split at hsh <;> exact hc sh hsh
  | setTransparency n => simp only [Canvas.call, Option.some.injEq] at h; subst h; exact hc
  | _ => exact key h

theorem levelTurns_of_heights (e : Env) (H : ℚ) : ∀ (calls : List Call) (c : Canvas), (∀ sh ∈ c.sheets, sh.height = H) →
    (∀ k ∈ calls, ∀ h, k = .addPage h → h = H) → LevelTurns e c calls
  | [], _, _, _ => trivial
  | k :: rest, c, hc, h => ⟨fun n _ sh sh' h1 h2 => by
      rw [hc sh (List.mem_of_getElem? h1), hc sh' (List.mem_of_getElem? h2)],
    fun c' h' => levelTurns_of_heights e H rest c' (heights_call h' hc (h k (by simp))) (fun k hk => h k (by simp [hk]))⟩

theorem seen_true (l : List Figure) : l.map (·.seen true) = l := by
  rw [show (fun f : Figure => f.seen true) = id from rfl]; simp
theorem seen_false (l : List Figure) : l.map (·.seen false) = l.map Figure.noFill := rfl

end Verif.Canvas
