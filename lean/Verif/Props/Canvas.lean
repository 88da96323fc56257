import Verif.Lemmas.Content.Canvas
import Verif.Props.Balance
import Mathlib.Tactic.FieldSimp
import Mathlib.Tactic.NormNum
/- C48, C49, C50: figures, rotation, images. -/
namespace Verif.Props
open Content Paint Canvas
open Units (toPoints Cfg)

/-! ### C48 -/

private theorem sim_of {b d : Bool} {e : Env} (wd : Widths) {height ml mt : ℚ} {calls : List Call} {s : St} {c : Canvas}
    (h : steps e (start height ml mt) calls = some s) (hc : (blank height).calls e calls = some c)
    (h1 : d = true → ∀ k ∈ calls, Undecorated k) (h2 : ∀ k ∈ calls, MaskUpright k) (h3 : LevelTurns e (blank height) calls)
    (h4 : b = true → ∀ k ∈ calls, ∀ col, k ≠ .setTextColour col) : Sim b d wd e s c :=
  (Sim.start b d wd e height ml mt).steps calls (fun k hk => ⟨fun hd => h1 hd k hk, h2 k hk, fun hb => h4 hb k hk⟩) h3 h hc

/-- **C48** Every page shows the figures of its canvas: in the order of the calls, each with the coordinates given to its call
(measured from the upper left corner of its page, in the document's unit), painted with the line width, dash pattern, colours,
transparency, rotation and clipping in effect at its call.  Nothing else is painted but text with its underlines and borders.
For every history in which text has no colour of its own, masked images that are mirrored or cropped are not rotated, every
RestoreGraphicsState and RotateReset has its partner, no polygon is empty, and SetPage turns only to pages of the same height as
the current one. -/
theorem figures_drawn (e : Env) (wd : Widths) (height ml mt : ℚ) (calls : List Call) (s : St) (c : Canvas)
    (h : steps e (start height ml mt) calls = some s) (hc : (blank height).calls e calls = some c)
    (h2 : ∀ k ∈ calls, MaskUpright k) (h3 : LevelTurns e (blank height) calls)
    (h4 : ∀ k ∈ calls, ∀ col, k ≠ .setTextColour col) :
    s.pages.length = c.sheets.length ∧
    ∀ (n : Nat) (sh : Sheet), c.sheets[n]? = some sh →
      ∃ r, run wd {} (pageOps e (s.pages.getD n [])) = some r ∧ sh.figs.Sublist (figures r.marks) ∧
        ((∀ k ∈ calls, Undecorated k) → figures r.marks = sh.figs) := by
  have hsim := sim_of (b := true) (d := false) wd h hc (by simp) h2 h3 (fun _ => h4)
  refine ⟨hsim.len, fun n sh hn => ?_⟩
  obtain ⟨r, own, q1, -, -, -, -, -, q2⟩ := hsim.sheets n sh hn
  simp only [seen_true] at q2
  refine ⟨r, q1.run, by rw [← q2]; exact q1.sublist, fun h1 => ?_⟩
  have hsim := sim_of (b := true) (d := true) wd h hc (fun _ => h1) h2 h3 (fun _ => h4)
  rw [← q2]; exact q1.exact (hsim.texts n)

/-- **C48** With coloured text among the calls the same holds, except for the fill colour (coloured text changes it, see
`text_colour_fills_fails`). -/
theorem figures_drawn_but_fill (e : Env) (wd : Widths) (height ml mt : ℚ) (calls : List Call) (s : St) (c : Canvas)
    (h : steps e (start height ml mt) calls = some s) (hc : (blank height).calls e calls = some c)
    (h2 : ∀ k ∈ calls, MaskUpright k) (h3 : LevelTurns e (blank height) calls) :
    s.pages.length = c.sheets.length ∧
    ∀ (n : Nat) (sh : Sheet), c.sheets[n]? = some sh →
      ∃ r, run wd {} (pageOps e (s.pages.getD n [])) = some r ∧
        (sh.figs.map (·.noFill)).Sublist ((figures r.marks).map (·.noFill)) ∧
        ((∀ k ∈ calls, Undecorated k) → (figures r.marks).map (·.noFill) = sh.figs.map (·.noFill)) := by
  have hsim := sim_of (b := false) (d := false) wd h hc (by simp) h2 h3 (by simp)
  refine ⟨hsim.len, fun n sh hn => ?_⟩
  obtain ⟨r, own, q1, -, -, -, -, -, q2⟩ := hsim.sheets n sh hn
  simp only [seen_false] at q2
  refine ⟨r, q1.run, by rw [← q2]; exact q1.sublist.map _, fun h1 => ?_⟩
  have hsim := sim_of (b := false) (d := true) wd h hc (fun _ => h1) h2 h3 (by simp)
  rw [← q2, q1.exact (hsim.texts n)]

/-- The condition on `SetPage` is met by documents whose pages have one height, and by those that never turn back. -/
theorem turns_allowed (e : Env) (height : ℚ) (calls : List Call)
    (h : (∀ k ∈ calls, ∀ ht, k = .addPage ht → ht = height) ∨ (∀ k ∈ calls, ∀ n, k ≠ .setPage n)) :
    LevelTurns e (blank height) calls := by
  rcases h with h | h
  · exact levelTurns_of_heights e height calls _ (by simp [blank]) h
  · exact levelTurns_of_forward e calls _ h

/-- A document in millimetres with two pages. -/
def drawEnv : Env := { cfg := ⟨2, 0⟩, fonts := fun _ => demoRunFont, cos := fun _ => 3 / 5, sin := fun _ => 4 / 5 }

def drawCalls : List Call :=
  [.setLineWidth 1, .setColour true 255 0 0, .line 10 10 20 30, .save, .setLineType true false, .setTransparency (some 7),
   .rotate 30 50 50, .rectUpperOpt 40 40 20 10 .both none, .rotateReset, .addPage 400, .polygon [(1, 1), (2, 1), (2, 2)] .fill,
   .setPage 0, .restore, .oval 10 10 30 20, .text [65, 66], .curve (1, 1) (2, 2) (3, 3) (4, 4) .stroke,
   .image { withMask := false, maskAngle := 0, imageAngle := 0, verticalFlip := true, horizontalFlip := false, index := 2,
            x := 10, y := 20, pageHeight := 0, rect := { w := 100, h := 50 }, crop := none, ext := [] }]

example : ∃ s c, steps drawEnv (start 400 0 0) drawCalls = some s ∧ (blank 400).calls drawEnv drawCalls = some c ∧
    (∀ k ∈ drawCalls, Undecorated k) ∧ (∀ k ∈ drawCalls, MaskUpright k) ∧ LevelTurns drawEnv (blank 400) drawCalls ∧
    (∀ k ∈ drawCalls, ∀ col, k ≠ .setTextColour col) ∧ (c.sheets.map fun sh => sh.figs.length) = [5, 1] := by
  have h1 : (steps drawEnv (start 400 0 0) drawCalls).isSome = true := by decide +kernel
  have h2 : ((blank 400).calls drawEnv drawCalls).isSome = true := by decide +kernel
  have h3 : (((blank 400).calls drawEnv drawCalls).map fun c => c.sheets.map fun sh => sh.figs.length) = some [5, 1] := by
    decide +kernel
  obtain ⟨s, hs⟩ := Option.isSome_iff_exists.1 h1
  obtain ⟨c, hc⟩ := Option.isSome_iff_exists.1 h2
  refine ⟨s, c, hs, hc, ?_, ?_, turns_allowed _ _ _ (.inl ?_), ?_, ?_⟩
  · simp [drawCalls, Undecorated]
  · simp [drawCalls, MaskUpright]
  · simp [drawCalls]
  · simp [drawCalls]
  · rw [hc] at h3; simpa using h3

/-- **C48** A page turned to with SetPage keeps its own height, but drawing on it is placed with the height of the page added
last: a line asked for 10 points below the upper edge of a page 800 points high is 510 points below it when a page 300 points
high was added in between. -/
theorem setPage_height_fails :
    let e : Env := { drawEnv with cfg := ⟨1, 0⟩ }
    let calls : List Call := [.addPage 300, .setPage 0, .line 0 10 100 10]
    ∃ s c sh, steps e (start 800 0 0) calls = some s ∧ (blank 800).calls e calls = some c ∧ c.sheets[0]? = some sh ∧
      sh.figs = [.path .stroke [.move (0, 790), .line (100, 790)] {} []] ∧
      ∀ wd, ∃ r, run wd {} (pageOps e (s.pages.getD 0 [])) = some r ∧
        figures r.marks = [.path .stroke [.move (0, 290), .line (100, 290)] {} []] := by
  refine ⟨_, _, _, rfl, rfl, rfl, ?_, fun wd => ⟨_, rfl, ?_⟩⟩
  · decide +kernel
  · decide +kernel

/-- **C48** The colour of a text becomes the fill colour of the figures after it. -/
theorem text_colour_fills_fails :
    let e : Env := { drawEnv with cfg := ⟨1, 0⟩ }
    let calls : List Call := [.setTextColour (.rgb 255 0 0), .text [65], .rectLowerOpt 0 0 10 10 .fill none]
    ∃ s c sh, steps e (start 800 0 0) calls = some s ∧ (blank 800).calls e calls = some c ∧ c.sheets[0]? = some sh ∧
      sh.figs = [.path .fill [.rect 0 800 10 10] {} []] ∧
      ∃ r, run (fun _ _ => 500) {} (pageOps e (s.pages.getD 0 [])) = some r ∧
        figures r.marks = [.path .fill [.rect 0 800 10 10] { fill := .rgb 1 0 0 } []] := by
  refine ⟨_, _, _, rfl, rfl, rfl, ?_, ⟨_, rfl, ?_⟩⟩
  · decide +kernel
  · decide +kernel

/-! ### C49 -/

/-- **C49** A rotation keeps its centre where it is, and, when `c` and `s` are the cosine and sine of an angle, keeps all
distances and the orientation, and turns the direction of the first axis to `(c, s)`, that is counterclockwise by the angle. -/
theorem rotation_turns (c s : ℚ) (o : ℚ × ℚ) (h : c * c + s * s = 1) :
    (rotation c s o).app o = o ∧
    (∀ p q : ℚ × ℚ, (((rotation c s o).app p).1 - ((rotation c s o).app q).1) ^ 2 +
      (((rotation c s o).app p).2 - ((rotation c s o).app q).2) ^ 2 = (p.1 - q.1) ^ 2 + (p.2 - q.2) ^ 2) ∧
    (rotation c s o).a * (rotation c s o).d - (rotation c s o).b * (rotation c s o).c = 1 ∧
    (∀ t : ℚ, (rotation c s o).app (o.1 + t, o.2) = (o.1 + t * c, o.2 + t * s)) := by
  refine ⟨?_, fun p q => ?_, ?_, fun t => ?_⟩
  · simp only [rotation, Mat.app]; refine Prod.ext ?_ ?_ <;> simp only [] <;> ring
  · simp only [rotation, Mat.app]
    have : (c * c + s * s) * ((p.1 - q.1) ^ 2 + (p.2 - q.2) ^ 2) = (p.1 - q.1) ^ 2 + (p.2 - q.2) ^ 2 := by rw [h, one_mul]
    rw [← this]; ring
  · simp only [rotation]; linarith
  · simp only [rotation, Mat.app]; refine Prod.ext ?_ ?_ <;> simp only [] <;> ring

/-- **C49** Rotate(angle, x, y) on a page: from then on every point is first turned about the point at `(x, y)` (from the upper
left corner of the page, in the document's unit), by the angle, and then treated as before; nothing else of the graphics state
changes, and the state before is kept for RotateReset. -/
theorem rotate_turns_about (e : Env) (wd : Widths) (s s' : St) (angle x y : ℚ) (h : step e s (.rotate angle x y) = some s')
    (hp : s.page < s.pages.length) (r : Reader) (hr : run wd {} (pageOps e (s.pages.getD s.page [])) = some r) (hl : r.level = .page) :
    ∃ m, run wd {} (pageOps e (s'.pages.getD s.page [])) =
        some { r with g := { r.g with ctm := m }, stack := r.g :: r.stack } ∧
      ∀ p, m.app p = r.g.ctm.app ((rotation (e.cos angle) (e.sin angle) (toPage e.cfg s.cur.pageHeight (x, y))).app p) := by
  simp only [step, Option.some.injEq] at h
  subst h
  refine ⟨(rotation (e.cos angle) (e.sin angle) (toPage e.cfg s.cur.pageHeight (x, y))).mul r.g.ctm, ?_, fun p => ?_⟩
  · simp only [St.add, modify_eq_set, getD_set _ _ _ _ hp, if_true]
    rw [Canvas.pageOps_snoc, run_append, hr, Option.bind_some]
    simp only [ops]
    rw [run_cons]
    simp only [exec, hl, if_true, Option.bind_some]
    rw [Runs.rotate wd e _ _ _ _ _ rfl, rotMat_eq]
    simp [toPage]
  · simp only [Mat.app, Mat.mul]; refine Prod.ext ?_ ?_ <;> simp only [] <;> ring

/-- **C49** RotateReset on a page: the graphics state is that before the Rotate (or SaveGraphicsState) it belongs to. -/
theorem rotate_reset_restores (e : Env) (wd : Widths) (s s' : St) (h : step e s .rotateReset = some s')
    (hp : s.page < s.pages.length) (r : Reader) (hr : run wd {} (pageOps e (s.pages.getD s.page [])) = some r) (hl : r.level = .page)
    (g : GState) (st : List GState) (hst : r.stack = g :: st) :
    run wd {} (pageOps e (s'.pages.getD s.page [])) = some { r with g := g, stack := st } := by
  simp only [step, Option.some.injEq] at h
  subst h
  simp only [St.add, modify_eq_set, getD_set _ _ _ _ hp, if_true]
  rw [Canvas.pageOps_snoc, run_append, hr, Option.bind_some]
  simp [ops, run_cons, exec, hl, hst, run]

/-- A rotated figure in the demonstration document: the centre stays. -/
example : let m := rotation (3 / 5) (4 / 5) (10, 20)
    m.app (10, 20) = (10, 20) ∧ m.app (15, 20) = (13, 24) := by decide +kernel

/-! ### C50 -/

/-- A point of the unit square, in the box with lower left corner `(x, y)` and size `(w, h)`, mirrored if asked for. -/
def inBox (x y w h : ℚ) (mirrorX mirrorY : Bool) (u v : ℚ) : ℚ × ℚ :=
  (x + w * (if mirrorX then 1 - u else u), y + h * (if mirrorY then 1 - v else v))

/-- The point `p` is in the rectangle with the given lower left corner and size. -/
def InRect (x y w h : ℚ) (p : ℚ × ℚ) : Prop := x ≤ p.1 ∧ p.1 ≤ x + w ∧ y ≤ p.2 ∧ p.2 ≤ y + h

theorem Mat.app_mul (m n : Mat) (p : ℚ × ℚ) : (m.mul n).app p = n.app (m.app p) := by
  simp only [Mat.app, Mat.mul]; refine Prod.ext ?_ ?_ <;> simp only [] <;> ring

/-- **C50** An image without mask fills the rectangle asked for: drawn at `(x, y)` (from the upper left corner, in points) with
width `w` and height `h`, its unit square goes to the box with that upper left corner and size, mirrored if asked for, and then
turned about the middle of the box by the angle; with a crop window the box is shifted so that the window's upper left corner is
at `(x, y)`, exactly the window is visible, and the middle of the window is the centre.  The graphics state is left as it was. -/
theorem image_placed (e : Env) (wd : Widths) (i : ImageItem) (hm : i.withMask = false) (r : Reader) (hl : r.level = .page) :
    let turn := rotation (e.cos i.imageAngle) (e.sin i.imageAngle) (i.x + (shown i).1 / 2, i.pageHeight - (i.y + (shown i).2 / 2))
    ∃ g : GState, run wd r (ops e (.image i)) = some { r with marks := r.marks ++ [.image (i.index + 1) g] } ∧
      g.ext = r.g.ext ++ i.ext ∧
      (∀ u v, g.ctm.app (u, v) = r.g.ctm.app (turn.app (inBox (i.x - (cropOffset i).1)
        (i.pageHeight - (i.y - (cropOffset i).2) - i.rect.h) i.rect.w i.rect.h i.horizontalFlip i.verticalFlip u v))) ∧
      (i.crop = none → g.clip = r.g.clip) ∧
      (∀ c, i.crop = some c → ∃ m x y, g.clip = r.g.clip ++ [(m, [.rect x y c.width c.height], true)] ∧
        ∀ p, (∃ q, InRect x y c.width c.height q ∧ m.app q = p) ↔
          ∃ q, InRect i.x (i.pageHeight - i.y - c.height) c.width c.height q ∧ r.g.ctm.app (turn.app q) = p) := by
  intro turn
  have hu : MaskUpright (.image i) := by simp [MaskUpright, hm]
  have hr := runs_image wd e i r hl
  have hc := image_ctm e i hu r.g
  have hmr : i.maskRotates = false := by simp [ImageItem.maskRotates, hm]
  simp only [hm, Bool.false_eq_true, if_false] at hr hc
  refine ⟨_, hr, rfl, fun u v => ?_, fun h0 => ?_, fun c h0 => ?_⟩
  · simp only [hc]
    rw [Mat.app_mul]
    congr 1
    simp only [imageMatrix, hm, Bool.false_eq_true, false_and, if_false]
    rw [Mat.app_mul]
    congr 1
    unfold unitToBox inBox Mat.app
    cases i.horizontalFlip <;> cases i.verticalFlip <;> simp <;> (try constructor) <;> ring
  · simp [imageState, ImageItem.clipRect, h0]
  · have hmat : ∀ q : ℚ × ℚ, (if (i.horizontalFlip || i.verticalFlip) = true then i.flipMat.mul (turn.mul r.g.ctm) else turn.mul r.g.ctm).app q =
        r.g.ctm.app (turn.app (if i.horizontalFlip then -q.1 else q.1, if i.verticalFlip then -q.2 else q.2)) := by
      intro q
      have hf : ∀ q : ℚ × ℚ, i.flipMat.app q = (if i.horizontalFlip then -q.1 else q.1, if i.verticalFlip then -q.2 else q.2) := by
        intro q; unfold ImageItem.flipMat Mat.app
        cases i.horizontalFlip <;> cases i.verticalFlip <;> simp
      cases hh : i.horizontalFlip <;> cases hv : i.verticalFlip <;> simp only [Bool.or_self, Bool.or_true, Bool.or_false, if_true, Bool.false_eq_true, if_false] <;>
        simp only [Mat.app_mul, hf, hh, hv, if_true, Bool.false_eq_true, if_false]
    refine ⟨(if (i.horizontalFlip || i.verticalFlip) = true then i.flipMat.mul (turn.mul r.g.ctm) else turn.mul r.g.ctm),
      (if i.horizontalFlip then -i.x - c.width else i.x),
      (if i.verticalFlip then -(i.pageHeight - i.y - c.height) - c.height else i.pageHeight - i.y - c.height), ?_, fun p => ?_⟩
    · simp only [imageState, ImageItem.clipRect, h0, Option.map_some, rotMat_eq]
      rfl
    · constructor
      · rintro ⟨q, ⟨q1, q2, q3, q4⟩, rfl⟩
        refine ⟨_, ?_, (hmat q).symm⟩
        unfold InRect
        cases hh : i.horizontalFlip <;> cases hv : i.verticalFlip <;>
          simp only [hh, hv, if_true, Bool.false_eq_true, if_false] at q1 q2 q3 q4 ⊢ <;> refine ⟨?_, ?_, ?_, ?_⟩ <;> linarith
      · rintro ⟨q, ⟨q1, q2, q3, q4⟩, rfl⟩
        refine ⟨(if i.horizontalFlip then -q.1 else q.1, if i.verticalFlip then -q.2 else q.2), ?_, ?_⟩
        · unfold InRect
          cases hh : i.horizontalFlip <;> cases hv : i.verticalFlip <;>
            simp only [if_true, Bool.false_eq_true, if_false] <;> refine ⟨?_, ?_, ?_, ?_⟩ <;> linarith
        · rw [hmat]
          cases hh : i.horizontalFlip <;> cases hv : i.verticalFlip <;> simp

/-- A cropped, mirrored and turned image: the hypotheses of `image_placed` are met, and the middle of the window stays. -/
example : let e : Env := { demoEnv with cos := fun _ => 3 / 5, sin := fun _ => 4 / 5 }
    let i : ImageItem := { withMask := false, maskAngle := 0, imageAngle := 53, verticalFlip := true, horizontalFlip := true, index := 0, x := 100, y := 100, pageHeight := 800, rect := { w := 100, h := 100 }, crop := some ⟨20, 20, 60, 60⟩, ext := [] }
    i.withMask = false ∧ (imageMatrix e 800 i).app (1 / 2, 1 / 2) = (130, 670) ∧
    (run (fun _ _ => 0) {} (ops e (.image i))).map (fun r => r.marks.length) = some 1 := by decide +kernel

/-- The middles of the images painted. -/
def imageMiddles (l : List Mark) : List (ℚ × ℚ) := l.filterMap fun m => match m with
  | .image _ g => some (g.ctm.app (1 / 2, 1 / 2))
  | _ => none

/-- **C50** (counterexample)  An image with a mask that is both mirrored and rotated is painted elsewhere: asked for the box from
`(100, 100)` to `(200, 200)` below the upper edge of a page 800 points high and a quarter turn about its middle `(150, 650)`, its
middle is painted at `(-150, 350)`. -/
theorem masked_mirrored_turned_fails :
    let e : Env := { demoEnv with cos := fun _ => 0, sin := fun _ => 1 }
    let i : ImageItem := { withMask := true, maskAngle := 0, imageAngle := 90, verticalFlip := false, horizontalFlip := true, index := 0, x := 100, y := 100, pageHeight := 800, rect := { w := 100, h := 100 }, crop := none, ext := [] }
    (imageMatrix e 800 i).app (1 / 2, 1 / 2) = (150, 650) ∧
    (run (fun _ _ => 0) {} (ops e (.image i))).map (fun r => imageMiddles r.marks) = some [(-150, 350)] := by
  decide +kernel

end Verif.Props
