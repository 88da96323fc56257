import Verif.Lemmas.Content.Run
import Verif.Spec.Drawing
import Mathlib.Tactic.Ring
/- Balance of the operators of a page. -/
namespace Verif.Content
open Paint Drawing

/-- Items that draw, or set a parameter. -/
def Item.neutral : Item → Bool
  | .rotate _ _ _ _ | .rotateReset | .save | .restore => false
  | _ => true

def Item.good : Item → Prop
  | .polygon _ pts _ _ => pts ≠ []
  | .clipPolygon _ pts => pts ≠ []
  | _ => True

theorem Runs.cm (wd : Widths) (m : Mat) : Runs wd [.cm m] (fun g => { g with ctm := m.mul g.ctm }) (fun _ => []) := by
  intro r hr
  simp [run_cons, run, exec, hr]

/-- The matrix a rotation applies. -/
def rotMat (e : Env) (x y a h : ℚ) : Mat :=
  (⟨1, 0, 0, 1, -x, -(h - y)⟩ : Mat).mul ⟨e.cos a, e.sin a, -e.sin a, e.cos a, x, h - y⟩

theorem Mat.mul_assoc (m n k : Mat) : (m.mul n).mul k = m.mul (n.mul k) := by
  simp only [Mat.mul, Mat.mk.injEq]
  refine ⟨?_, ?_, ?_, ?_, ?_, ?_⟩ <;> ring

theorem Runs.rotate (wd : Widths) (e : Env) (x y a h : ℚ) :
    Runs wd (rotateOps e x y a h) (fun g => { g with ctm := (rotMat e x y a h).mul g.ctm }) (fun _ => []) :=
  ((Runs.cm wd _).append (Runs.cm wd _)).congr (fun _ => by simp [rotMat, Mat.mul_assoc]) (fun _ => rfl)

/-- The graphics state in which an image is painted, before its own matrix, without the outer rotation. -/
def imageState (e : Env) (i : ImageItem) (g : GState) : GState :=
  let c1 := if i.horizontalFlip || i.verticalFlip then i.flipMat.mul g.ctm else g.ctm
  { g with
    ext := g.ext ++ i.ext
    clip := g.clip ++ (match i.clipRect with | some (x, y, w, h) => [(c1, [.rect x y w h], true)] | none => [])
    ctm := (if i.maskRotates then
      (rotMat e (i.x + i.rect.w / 2) (i.y + i.rect.h / 2) (i.maskAngle + i.imageAngle) i.pageHeight).mul c1 else c1) }

theorem runs_imageInner (wd : Widths) (e : Env) (i : ImageItem) : Runs wd (imageInner e i) (fun g => g)
    (fun g => [.image (i.index + 1) { imageState e i g with ctm := i.place.mul (imageState e i g).ctm }]) := by
  have img : ∀ (m : Mat) (n : Nat), Runs wd [.cm m, .image n] (fun g => { g with ctm := m.mul g.ctm })
      (fun g => [.image n { g with ctm := m.mul g.ctm }]) := by
    intro m n r hr
    simp [run_cons, run, exec, hr]
  have clip : Runs wd (match i.clipRect with | some (x, y, w, h) => [.re x y w h, .W true, .n] | none => [])
      (fun g => { g with clip := g.clip ++ (match i.clipRect with
        | some (x, y, w, h) => [(g.ctm, [.rect x y w h], true)] | none => []) }) (fun _ => []) := by
    intro r hr
    cases i.clipRect with
    | none => simp [run]
    | some t => obtain ⟨x, y, w, h⟩ := t; simp [run_cons, run, exec, exec.finish, hr]
  have h1 := ((Runs.if (i.maskRotates = true) (Runs.rotate wd e (i.x + i.rect.w / 2) (i.y + i.rect.h / 2)
    (i.maskAngle + i.imageAngle) i.pageHeight)).append (img i.place (i.index + 1))).wrap
  have h2 := ((Runs.gs wd i.ext).append
    ((Runs.if ((i.horizontalFlip || i.verticalFlip) = true) (Runs.cm wd i.flipMat)).append (clip.append h1))).wrap
  refine Runs.congr h2 (fun g => rfl) (fun g => ?_)
  by_cases hm : i.maskRotates = true <;> by_cases hf : (i.horizontalFlip || i.verticalFlip) = true <;>
    simp [imageState, hm, hf]

theorem runs_image (wd : Widths) (e : Env) (i : ImageItem) : Runs wd (imageOps e i) (fun g => g) (fun g =>
    let g1 := if i.withMask then g else { g with ctm :=
      (rotMat e (i.x + i.cropSize.1 / 2) (i.y + i.cropSize.2 / 2) i.imageAngle i.pageHeight).mul g.ctm }
    [.image (i.index + 1) { imageState e i g1 with ctm := i.place.mul (imageState e i g1).ctm }]) := by
  unfold imageOps
  cases hm : i.withMask
  · refine Runs.congr ((Runs.rotate wd e _ _ _ _).append (runs_imageInner wd e i)).wrap (fun _ => rfl) (fun g => ?_)
    simp
  · refine Runs.congr (runs_imageInner wd e i) (fun _ => rfl) (fun g => ?_)
    simp

theorem Runs.state {wd : Widths} {op : Op} {f : GState → GState} (h : ∀ r, exec wd r op = exec.state r f) :
    Runs wd [op] f (fun _ => []) := by
  intro r hr
  simp [run_cons, run, h, exec.state, hr]

theorem Runs.curves (wd : Widths) (a b1 b2 b3 c1 c2 c3 d1 d2 d3 e1 e2 e3 : ℚ × ℚ) :
    Runs wd [.m a, .c b1 b2 b3, .c c1 c2 c3, .c d1 d2 d3, .c e1 e2 e3, .paint false .stroke] (fun g => g)
      (fun g => [.shape .stroke [.move a, .curve b1 b2 b3, .curve c1 c2 c3, .curve d1 d2 d3, .curve e1 e2 e3] g]) := by
  intro r hr
  simp [run_cons, run, exec, exec.extend, exec.finish, hr]

theorem runs_line (wd : Widths) (e : Env) (h x1 y1 x2 y2 : ℚ) (ext : List Nat) : Runs wd (ops e (.line h x1 y1 x2 y2 ext))
    (fun g => g) (fun g => [.shape .stroke [.move (x1, h - y1), .line (x2, h - y2)] { g with ext := g.ext ++ ext }]) := by
  have h1 : Runs wd [.m (x1, h - y1), .l (x2, h - y2), .paint false .stroke] (fun g => g)
      (fun g => [.shape .stroke [.move (x1, h - y1), .line (x2, h - y2)] g]) := by
    intro r hr; simp [run_cons, run, exec, exec.extend, exec.finish, hr]
  have h2 := ((Runs.gs wd ext).append h1).wrap
  simpa [ops] using h2

theorem runs_rectangle (wd : Widths) (e : Env) (h x y w ht : ℚ) (st : PaintKind) (ext : List Nat) :
    Runs wd (ops e (.rectangle h x y w ht st ext)) (fun g => g)
      (fun g => [.shape st [.rect x (h - y) w ht] { g with ext := g.ext ++ ext }]) := by
  have h1 : Runs wd [.re x (h - y) w ht, .paint false st] (fun g => g) (fun g => [.shape st [.rect x (h - y) w ht] g]) := by
    intro r hr; simp [run_cons, run, exec, exec.finish, hr]
  have h2 := ((Runs.gs wd ext).append h1).wrap
  simpa [ops] using h2

theorem runs_polygon (wd : Widths) (e : Env) (h : ℚ) (pts : List (ℚ × ℚ)) (st : PaintKind) (ext : List Nat) (hne : pts ≠ []) :
    Runs wd (ops e (.polygon h pts st ext)) (fun g => g) (fun g =>
      [.shape st (if st ≠ .fill then segs h pts ++ [.close] else segs h pts) { g with ext := g.ext ++ ext }]) := by
  have h1 : Runs wd (pathOps h pts ++ [.paint (st ≠ .fill) st]) (fun g => g)
      (fun g => [.shape st (if st ≠ .fill then segs h pts ++ [.close] else segs h pts) g]) := by
    intro r hr
    rw [run_append, run_path wd h pts hne r hr]
    simp [run_cons, run, exec, exec.finish, hr]
  have h2 := ((Runs.gs wd ext).append h1).wrap
  simpa [ops] using h2

theorem runs_curve (wd : Widths) (e : Env) (h : ℚ) (p0 p1 p2 p3 : ℚ × ℚ) (st : PaintKind) :
    Runs wd (ops e (.curve h p0 p1 p2 p3 st)) (fun g => g) (fun g =>
      [.shape st [.move (p0.1, h - p0.2), .curve (p1.1, h - p1.2) (p2.1, h - p2.2) (p3.1, h - p3.2)] g]) := by
  intro r hr
  simp [ops, run_cons, run, exec, exec.extend, exec.finish, hr]

theorem runs_template (wd : Widths) (e : Env) (h sx sy tx ty : ℚ) (name : List UInt8) :
    Runs wd (ops e (.template h sx sy tx ty name)) (fun g => g) (fun g =>
      [.template name { g with cap := 0, lineWidth := 1, join := 0, stroke := .gray 0, fill := .gray 0,
                               ctm := (⟨sx, 0, 0, sy, tx, ty + h⟩ : Mat).mul g.ctm }]) := by
  intro r hr
  simp [ops, run_cons, run, exec, exec.state, hr]

/-- Every item that neither saves nor restores paints and comes back to page level with the same stack. -/
theorem runs_neutral (wd : Widths) (e : Env) (i : Item) (hn : i.neutral = true) (hg : i.good) :
    ∃ f k, Runs wd (ops e i) f k := by
  cases i with
  | rotate => simp [Item.neutral] at hn
  | rotateReset => simp [Item.neutral] at hn
  | save => simp [Item.neutral] at hn
  | restore => simp [Item.neutral] at hn
  | text t => obtain ⟨k, h, _⟩ := runs_text wd e t; exact ⟨_, _, h⟩
  | image i => exact ⟨_, _, runs_image wd e i⟩
  | line h x1 y1 x2 y2 ext => exact ⟨_, _, runs_line wd e h x1 y1 x2 y2 ext⟩
  | rectangle h x y w ht st ext => exact ⟨_, _, runs_rectangle wd e h x y w ht st ext⟩
  | polygon h pts st ext => exact ⟨_, _, runs_polygon wd e h pts st ext hg⟩
  | curve h p0 p1 p2 p3 st => exact ⟨_, _, runs_curve wd e h p0 p1 p2 p3 st⟩
  | template h sx sy tx ty name => exact ⟨_, _, runs_template wd e h sx sy tx ty name⟩
  | oval h x1 y1 x2 y2 =>
    exact ⟨_, _, Runs.curves wd _ _ _ _ _ _ _ _ _ _ _ _ _⟩
  | clipPolygon h pts =>
    refine ⟨fun g => { g with clip := g.clip ++ [(g.ctm, segs h pts ++ [.close], false)] }, fun _ => [], fun r hr => ?_⟩
    simp only [ops]
    rw [run_append, run_path wd h pts hg r hr]
    simp [run_cons, run, exec, exec.extend, exec.finish, hr]
  | gray st v =>
    cases st
    · exact ⟨_, _, Runs.state (wd := wd) (f := fun g => { g with fill := .gray v }) (fun _ => rfl)⟩
    · exact ⟨_, _, Runs.state (wd := wd) (f := fun g => { g with stroke := .gray v }) (fun _ => rfl)⟩
  | rgb st r g b =>
    cases st
    · exact ⟨_, _, Runs.state (wd := wd) (f := fun s => { s with fill := rgbColour r g b }) (fun _ => rfl)⟩
    · exact ⟨_, _, Runs.state (wd := wd) (f := fun s => { s with stroke := rgbColour r g b }) (fun _ => rfl)⟩
  | cmyk st c m y k =>
    cases st
    · exact ⟨_, _, Runs.state (wd := wd) (f := fun s => { s with fill := cmykColour c m y k }) (fun _ => rfl)⟩
    · exact ⟨_, _, Runs.state (wd := wd) (f := fun s => { s with stroke := cmykColour c m y k }) (fun _ => rfl)⟩
  | lineWidth w => exact ⟨_, _, Runs.state (wd := wd) (f := fun s => { s with lineWidth := w }) (fun _ => rfl)⟩
  | lineType a b =>
    have key : ∀ (l : List ℚ) (ph : ℚ), ops e (.lineType a b) = [.d l ph] →
        ∃ f k, Runs wd (ops e (.lineType a b)) f k := fun l ph ho =>
      (⟨_, _, by rw [ho]; exact Runs.state (wd := wd) (f := fun s => { s with dash := (l, ph) }) (fun _ => rfl)⟩)
    cases a <;> cases b <;> exact key _ _ rfl
  | dash a p => exact ⟨_, _, Runs.state (wd := wd) (f := fun s => { s with dash := (a, p) }) (fun _ => rfl)⟩
  | colourSpace n => exact ⟨_, _, Runs.state (wd := wd) (f := fun s => { s with stroke := .named (n + 1) }) (fun _ => rfl)⟩

/-- Depth of saved states after a list of items. -/
def nest : Nat → List Item → Option Nat
  | d, [] => some d
  | d, .save :: rest => nest (d + 1) rest
  | d, .rotate _ _ _ _ :: rest => nest (d + 1) rest
  | 0, .restore :: _ => none
  | d + 1, .restore :: rest => nest d rest
  | 0, .rotateReset :: _ => none
  | d + 1, .rotateReset :: rest => nest d rest
  | d, _ :: rest => nest d rest

theorem nest_neutral {i : Item} (h : i.neutral = true) (d : Nat) (rest : List Item) : nest d (i :: rest) = nest d rest := by
  cases i <;> simp_all [Item.neutral, nest]

theorem nest_append : ∀ (a b : List Item) (d : Nat), nest d (a ++ b) = (nest d a).bind fun d' => nest d' b := by
  intro a
  induction a with
  | nil => intro b d; rfl
  | cons i a ih =>
    intro b d
    by_cases hn : i.neutral = true
    · rw [List.cons_append, nest_neutral hn, nest_neutral hn, ih]
    · cases i <;> simp [Item.neutral] at hn <;> cases d <;> simp [nest, ih]

/-- Executing the items of a page keeps to page level, and the number of saved states is the depth. -/
theorem run_items (wd : Widths) (e : Env) : ∀ (items : List Item) (r : Reader) (d' : Nat), r.level = .page →
    (∀ i ∈ items, i.good) → nest r.stack.length items = some d' →
    ∃ r', run wd r (pageOps e items) = some r' ∧ r'.level = .page ∧ r'.stack.length = d' := by
  intro items
  induction items with
  | nil => intro r d' hr _ hd; exact ⟨r, rfl, hr, by simpa [nest] using hd⟩
  | cons i items ih =>
    intro r d' hr hg hd
    have hg' : ∀ i ∈ items, i.good := fun j hj => hg j (by simp [hj])
    unfold pageOps
    rw [List.flatMap_cons, run_append]
    by_cases hn : i.neutral = true
    · obtain ⟨f, k, h⟩ := runs_neutral wd e i hn (hg i (by simp))
      rw [h r hr, Option.bind_some]
      rw [nest_neutral hn] at hd
      exact ih ⟨f r.g, r.stack, r.level, r.marks ++ k r.g⟩ d' hr hg' hd
    · cases i <;> simp [Item.neutral] at hn
      case rotate h a x y =>
        simp only [ops, run_cons, exec, hr, if_true, Option.bind_some]
        rw [Runs.rotate wd e x y a h _ rfl]
        exact ih _ d' rfl hg' (by simpa [nest] using hd)
      case save =>
        simp only [ops, run_cons, run, exec, hr, if_true, Option.bind_some]
        exact ih _ d' rfl hg' (by simpa [nest] using hd)
      case restore =>
        cases hs : r.stack with
        | nil => rw [hs] at hd; simp [nest] at hd
        | cons g st =>
          simp only [ops, run_cons, run, exec, hr, hs, Option.bind_some]
          refine ih _ d' rfl hg' ?_
          rw [hs] at hd; simpa [nest] using hd
      case rotateReset =>
        cases hs : r.stack with
        | nil => rw [hs] at hd; simp [nest] at hd
        | cons g st =>
          simp only [ops, run_cons, run, exec, hr, hs, Option.bind_some]
          refine ih _ d' rfl hg' ?_
          rw [hs] at hd; simpa [nest] using hd

/-- Restoring what was not saved is an error. -/
theorem run_items_none (wd : Widths) (e : Env) : ∀ (items : List Item) (r : Reader), r.level = .page →
    (∀ i ∈ items, i.good) → nest r.stack.length items = none → run wd r (pageOps e items) = none := by
  intro items
  induction items with
  | nil => intro r _ _ hd; simp [nest] at hd
  | cons i items ih =>
    intro r hr hg hd
    have hg' : ∀ i ∈ items, i.good := fun j hj => hg j (by simp [hj])
    unfold pageOps
    rw [List.flatMap_cons, run_append]
    by_cases hn : i.neutral = true
    · obtain ⟨f, k, h⟩ := runs_neutral wd e i hn (hg i (by simp))
      rw [h r hr, Option.bind_some]
      rw [nest_neutral hn] at hd
      exact ih ⟨f r.g, r.stack, r.level, r.marks ++ k r.g⟩ hr hg' hd
    · cases i <;> simp [Item.neutral] at hn
      case rotate h a x y =>
        simp only [ops, run_cons, exec, hr, if_true, Option.bind_some]
        rw [Runs.rotate wd e x y a h _ rfl]
        exact ih _ rfl hg' (by simpa [nest] using hd)
      case save =>
        simp only [ops, run_cons, run, exec, hr, if_true, Option.bind_some]
        exact ih _ rfl hg' (by simpa [nest] using hd)
      case restore =>
        cases hs : r.stack with
        | nil => simp [ops, run_cons, exec, hr, hs]
        | cons g st =>
          simp only [ops, run_cons, run, exec, hr, hs, Option.bind_some]
          refine ih _ rfl hg' ?_
          rw [hs] at hd; simpa [nest] using hd
      case rotateReset =>
        cases hs : r.stack with
        | nil => simp [ops, run_cons, exec, hr, hs]
        | cons g st =>
          simp only [ops, run_cons, run, exec, hr, hs, Option.bind_some]
          refine ih _ rfl hg' ?_
          rw [hs] at hd; simpa [nest] using hd

/-! ### From calls to items -/

theorem nest_snoc_text (items : List Item) (t : TextItem) (d : Nat) : nest d (items ++ [.text t]) = nest d items := by
  rw [nest_append]; cases nest d items <;> simp [nest]

/-- The two ways to append text. -/
theorem append_cases {e : Env} {items items' : List Item} {c : TextItem} {text : List Nat} {x y : ℚ}
    (h : appendContentText e items c text = some (items', x, y)) :
    ∃ pre c' t, (items = pre ++ [.text c'] ∧ isSame c' c = true ∨ items = pre ∧ c' = c ∧ joinTarget items c = none) ∧
      extend e c' text = some t ∧ items' = pre ++ [.text t] ∧
      x = (if t.opt.float == 0 || has t.opt.float right || !t.isCell then t.x + t.cellWidth else c.x) ∧
      y = (if has t.opt.float bottom then t.y + t.cellHeight else c.y) := by
  unfold appendContentText at h
  simp only [Option.map_eq_some_iff, Prod.mk.injEq] at h
  obtain ⟨t, h1, h2, h3, h4⟩ := h
  cases hj : joinTarget items c with
  | none =>
    rw [hj] at h1 h2
    exact ⟨items, c, t, .inr ⟨rfl, rfl, rfl⟩, h1, by simpa using h2.symm, h3.symm, h4.symm⟩
  | some c' =>
    rw [hj] at h1 h2
    have : items = items.dropLast ++ [.text c'] ∧ isSame c' c = true := by
      unfold joinTarget at hj
      split at hj
      · next t' hl =>
        split at hj
        · next hs =>
          obtain rfl : t' = c' := by simpa using hj
          rw [List.getLast?_eq_some_iff] at hl
          obtain ⟨ys, rfl⟩ := hl
          exact ⟨by simp, hs⟩
        · exact absurd hj (by simp)
      · exact absurd hj (by simp)
    exact ⟨items.dropLast, c', t, .inl this, h1, by simpa using h2.symm, h3.symm, h4.symm⟩

/-- Appending text changes neither the nesting nor the other items. -/
theorem append_text {e : Env} {items items' : List Item} {c : TextItem} {text : List Nat} {x y : ℚ}
    (h : appendContentText e items c text = some (items', x, y)) :
    (∀ d, nest d items' = nest d items) ∧ ((∀ i ∈ items, i.good) → ∀ i ∈ items', i.good) := by
  obtain ⟨pre, c', t, hc, -, rfl, -, -⟩ := append_cases h
  rcases hc with ⟨rfl, -⟩ | ⟨rfl, -, -⟩
  · refine ⟨fun d => by rw [nest_snoc_text, nest_snoc_text], fun hg i hi => ?_⟩
    rw [List.mem_append, List.mem_singleton] at hi
    rcases hi with hi | rfl
    · exact hg i (by simp [hi])
    · trivial
  · refine ⟨fun d => by rw [nest_snoc_text], fun hg i hi => ?_⟩
    rw [List.mem_append, List.mem_singleton] at hi
    rcases hi with hi | rfl
    · exact hg i hi
    · trivial

/-- What a call does to the pages. -/
inductive Effect (e : Env) (s s' : St) : Call → Prop where
  | addPage (h : ℚ) (hp : s'.pages = s.pages ++ [[]]) (hc : s'.page = s.pages.length) : Effect e s s' (.addPage h)
  | setPage (n : Nat) (hp : s'.pages = s.pages) (hc : s'.page = if n < s.pages.length then n else s.page) :
      Effect e s s' (.setPage n)
  | other (c : Call) (ha : ∀ h, c ≠ .addPage h) (hs : ∀ n, c ≠ .setPage n) (hc : s'.page = s.page)
      (items : List Item) (hp : s'.pages = s.pages.set s.page items)
      (hn : ∀ d, nest d items = (nest d (s.pages.getD s.page [])).bind fun d' => depth d' [c])
      (hg : HasPoints c → (∀ i ∈ s.pages.getD s.page [], i.good) → ∀ i ∈ items, i.good) : Effect e s s' c

theorem set_getD_self {α : Type} (l : List (List α)) (n : Nat) : l.set n (l.getD n []) = l := by
  apply List.ext_getElem?
  intro i
  rw [List.getElem?_set]
  split
  · next h =>
    subst h
    split
    · next h => simp [List.getD_eq_getElem?_getD, List.getElem?_eq_getElem h]
    · next h => simp at h; simp [h]
  · rfl

theorem modify_eq_set {α : Type} (l : List (List α)) (n : Nat) (x : α) : l.modify n (· ++ [x]) = l.set n (l.getD n [] ++ [x]) := by
  apply List.ext_getElem?
  intro i
  rw [List.getElem?_modify, List.getElem?_set]
  by_cases h : n = i
  · subst h
    by_cases hl : n < l.length
    · simp [hl, List.getD_eq_getElem?_getD]
    · simp at hl
      simp [hl]
  · simp [h]

theorem step_effect {e : Env} {s s' : St} {c : Call} (h : step e s c = some s') : Effect e s s' c := by
  have keep : ∀ c, (∀ h, c ≠ .addPage h) → (∀ n, c ≠ .setPage n) → (∀ d, depth d [c] = some d) → s'.page = s.page →
      s'.pages = s.pages → Effect e s s' c := by
    intro c ha hs hd hc hp
    refine .other c ha hs hc (s.pages.getD s.page []) (by rw [hp, set_getD_self]) (fun d => ?_) (fun _ h => h)
    cases nest d (s.pages.getD s.page []) <;> simp [hd]
  have add : ∀ (c : Call) (i : Item), s'.pages = s.pages.modify s.page (· ++ [i]) → (∀ h, c ≠ .addPage h) →
      (∀ n, c ≠ .setPage n) → (∀ d, nest d [i] = depth d [c]) → (HasPoints c → i.good) → s'.page = s.page →
      Effect e s s' c := by
    intro c i hp ha hs hd hg hc
    refine .other c ha hs hc (s.pages.getD s.page [] ++ [i]) (by rw [hp, modify_eq_set]) (fun d => ?_) (fun h1 h2 j hj => ?_)
    · rw [nest_append]; simp only [hd]
    · rw [List.mem_append, List.mem_singleton] at hj
      rcases hj with hj | rfl
      · exact h2 j hj
      · exact hg h1
  have txt : ∀ (c : Call) (t : TextItem) (text : List Nat), (∀ h, c ≠ .addPage h) → (∀ n, c ≠ .setPage n) →
      (∀ d, depth d [c] = some d) → s.addText e t text = some s' → Effect e s s' c := by
    intro c t text ha hs hd h
    unfold St.addText at h
    split at h
    · exact absurd h (by simp)
    · next items x y hap =>
      obtain rfl := Option.some.inj h
      have := append_text hap
      refine .other c ha hs rfl items rfl (fun d => ?_) (fun _ => this.2)
      rw [this.1]
      cases nest d (s.pages.getD s.page []) <;> simp [hd]
  cases c with
  | addPage x => simp only [step, Option.some.injEq] at h; subst h; exact .addPage x rfl rfl
  | setPage n =>
    simp only [step, Option.some.injEq] at h; subst h
    refine .setPage n ?_ ?_ <;> split <;> rfl
  | text t => exact txt _ _ _ (by simp) (by simp) (fun d => by simp [depth]) h
  | cell r t => exact txt _ _ _ (by simp) (by simp) (fun d => by simp [depth]) h
  | cellWithOption r t o tr => exact txt _ _ _ (by simp) (by simp) (fun d => by simp [depth]) h
  | polygon pts st =>
    simp only [step, Option.some.injEq] at h; subst h
    refine add _ _ rfl (by simp) (by simp) (fun d => by simp [depth, nest]) (fun h => ?_) rfl
    simpa [Item.good, HasPoints] using h
  | clipPolygon pts =>
    simp only [step, Option.some.injEq] at h; subst h
    refine add _ _ rfl (by simp) (by simp) (fun d => by simp [depth, nest]) (fun h => ?_) rfl
    simpa [Item.good, HasPoints] using h
  | setLineType a b =>
    simp only [step, Option.some.injEq] at h; subst h
    cases a <;> cases b <;>
      exact add _ _ rfl (by simp) (by simp) (fun d => by simp [depth, nest]) (fun _ => trivial) rfl
  | save | restore | rotate _ _ _ | rotateReset =>
    simp only [step, Option.some.injEq] at h; subst h
    exact add _ _ rfl (by simp) (by simp) (fun d => by cases d <;> simp [depth, nest]) (fun _ => trivial) rfl
  | _ =>
    simp only [step, Option.some.injEq] at h; subst h
    first
    | exact keep _ (by simp) (by simp) (fun d => by simp [depth]) rfl rfl
    | exact add _ _ rfl (by simp) (by simp) (fun d => by simp [depth, nest]) (fun _ => trivial) rfl

end Verif.Content
