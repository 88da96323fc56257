import Verif.Lemmas.Content.PlaceHolder
import Verif.Props.Align
/- C45: placeholders. -/
namespace Verif.Props
open Content Paint Drawing
open Units (toPoints fromPoints)

private theorem psteps_append {e : Env} : ∀ (a b : List PCall) (p : PSt), psteps e p (a ++ b) = (psteps e p a).bind fun p' => psteps e p' b := by
  intro a
  induction a with
  | nil => intro b p; rfl
  | cons c a ih =>
    intro b p
    simp only [List.cons_append, psteps]
    cases pstep e p c with
    | none => rfl
    | some p' => simp [ih]

/-- **C45** A placeholder made at any moment and filled in at any later one.  In every document in points: the text appears in the
placeholder's own text object, on the page the placeholder was made on, in the font, size, spacing and colour of that moment, on
its base line, and begins at the placeholder's left edge (Left), or so that it ends at its right edge (Right), or in the
middle (Center); calls afterwards leave it there.  `mid` and `post` are any calls, among them fills of other names, of this name
left aligned, and any drawing on any page.  The conditions are needed: other units (`placeholder_unit_fails`), a current
font that is not the placeholder's when the text is filled in (`placeholder_font_fails`), filling again after Right or
Center (`placeholder_refill_fails`). -/
theorem placeholder_filled (e : Env) (hunit : ∀ v, fromPoints e.cfg v = v) (height ml mt : ℚ) (pre mid post : List PCall)
    (name : List UInt8) (width : ℚ) (text : List Nat) (align : Nat) (p0 p1 p2 p3 p4 : PSt)
    (h0 : psteps e { s := start height ml mt } pre = some p0) (h1 : pstep e p0 (.place name width) = some p1)
    (h2 : psteps e p1 mid = some p2) (hmid : ∀ c ∈ mid, LeftOnly name c) (hfont : p2.s.cur.font = p0.s.cur.font)
    (h3 : pstep e p2 (.fill name text align) = some p3)
    (h4 : psteps e p3 post = some p4) (hpost : ∀ c ∈ post, ∀ tx a, c ≠ .fill name tx a) :
    p1.s.cur.x = p0.s.cur.x + width ∧
    ∃ (k : Nat) (t : TextItem) (tw : ℚ), (p4.s.pages.getD p0.s.page [])[k]? = some (.text t) ∧ t.text = text ∧
      measureTextWidth e p0.s.cur text = some tw ∧
      textStart (ops e (.text t)) = some (p0.s.cur.x + offset align width tw, p0.s.cur.pageHeight - p0.s.cur.y) ∧
      t.font = p0.s.cur.font + 1 ∧ t.fontSize = p0.s.cur.fontSize ∧ t.charSpacing = p0.s.cur.charSpacing ∧
      t.colour = p0.s.cur.colour ∧ t.inColour = p0.s.cur.inColour := by
  have r0 := registered_steps pre (registered_start height ml mt) h0
  obtain rfl : placeHolder e p0 name width = p1 := by simpa [pstep] using h1
  have r1 := registered_step r0 h1
  refine ⟨by simp [placeHolder, hunit], ?_⟩
  set i : PInfo := { page := p0.s.page, idx := (p0.s.pages.getD p0.s.page []).length, width := fromPoints e.cfg width, size := p0.s.cur.fontSize, spacing := p0.s.cur.charSpacing } with hi
  have hm1 : (name, i) ∈ (placeHolder e p0 name width).table := List.mem_append_right _ (by simp [hi])
  obtain ⟨hm2, tx2, hat2, -⟩ := stays mid r1 hm1 h2 hmid (newPlaceHolder p0.s.cur) (at_place_new r0.page)
  have r2 := registered_steps mid r1 h2
  obtain ⟨s3, hs3, rfl⟩ := Option.map_eq_some_iff.1 h3
  obtain ⟨a1, a2, a3, a4, a5⟩ := at_fillAll _ _ _ hs3 (infos_pos r2.nodup name)
  obtain ⟨r, hr, hat3⟩ := a5 i (mem_infos.2 hm2)
  rw [hat2] at hat3
  have r3 := registered_step r2 h3
  have hm3 := table_step h3 hm2
  obtain ⟨-, tx4, hat4, htx⟩ := stays post r3 hm3 h4 (fun c hc => by
    cases c with
    | fill n tx a => exact fun hn => absurd (by rw [hn]) (hpost _ hc tx a)
    | _ => trivial) _ hat3
  obtain rfl := htx (fun tx a hmem => hpost _ hmem tx a rfl)
  refine ⟨i.idx, _, fromPoints e.cfg r.2.2, hat4, rfl, ?_, ?_, rfl, rfl, rfl, rfl, rfl⟩
  · unfold measureTextWidth
    rw [← hfont]
    exact congrArg _ hr
  · rw [textStart_text]
    simp only [calX, calY, newPlaceHolder, newText, hi, hunit, fillShift, offset]
    rfl

/-- **C45** Filling in changes only the placeholders of its name: any other item of any page stays where it is and as it is, and so
do the cursor and the current page.  (In particular a name that was never used changes nothing.) -/
theorem fill_changes_only (e : Env) (height ml mt : ℚ) (pre : List PCall) (name : List UInt8) (text : List Nat) (align : Nat) (p p' : PSt)
    (h0 : psteps e { s := start height ml mt } pre = some p) (h : pstep e p (.fill name text align) = some p') :
    p'.s.cur = p.s.cur ∧ p'.s.page = p.s.page ∧ p'.table = p.table ∧
    ∀ (pg k : Nat) (i : Item), (p.s.pages.getD pg [])[k]? = some i → (¬ IsPlaceHolder i ∨ ∀ x ∈ p.table, (x.2.page, x.2.idx) = (pg, k) → x.1 ≠ name) →
      (p'.s.pages.getD pg [])[k]? = some i := by
  have r0 := registered_steps pre (registered_start height ml mt) h0
  obtain ⟨s, hs, rfl⟩ := Option.map_eq_some_iff.1 h
  obtain ⟨a1, a2, a3, a4, a5⟩ := at_fillAll _ _ _ hs (infos_pos r0.nodup name)
  refine ⟨a1, a2, rfl, fun pg k i hi hno => ?_⟩
  refine (a4 pg k ?_).trans hi
  intro hmem
  obtain ⟨j, hj, he⟩ := List.mem_map.1 hmem
  simp only [PInfo.pos, Prod.mk.injEq] at he
  obtain ⟨t, h1, h2⟩ := r0.items _ (mem_infos.1 hj)
  rcases hno with hno | hno
  · have h1' : (p.s.pages.getD j.page [])[j.idx]? = some (.text t) := h1
    rw [he.1, he.2, hi] at h1'
    obtain rfl := Option.some.inj h1'
    exact hno h2
  · exact hno (name, j) (mem_infos.1 hj) (by simp [he.1, he.2]) rfl

/-- **C45** Text that is no wider than the placeholder stays inside it. -/
theorem offset_inside (align : Nat) (width text : ℚ) (h : text ≤ width) :
    0 ≤ offset align width text ∧ offset align width text + text ≤ width := by
  unfold offset
  split
  · constructor <;> linarith
  · split <;> constructor <;> linarith

/-- Two fonts: in the second every glyph is twice as wide. -/
def twoFonts : Env := { demoEnv with fonts := fun n => if n = 1 then demoRunFont else
  { demoRunFont with run := { demoRunFont.run with widths := [1000, 1200, 1400] } } }

/-- Positions and texts of the placeholders of the first page. -/
private def seen (e : Env) (calls : List PCall) : Option (List (ℚ × List Nat)) :=
  (psteps e { s := start 842 10 10 } calls).map fun p => (p.s.pages.getD 0 []).filterMap fun
    | .text t => if t.isPlaceHolder then (textStart (ops e (.text t))).map fun x => (x.1, t.text) else none
    | _ => none

/-- The hypotheses of `placeholder_filled`: a page number in the middle, one at the right, on a page with text before
and after. -/
example : seen demoEnv [.draw (.setFont 0 0 10), .draw (.text [65]), .place [1] 30, .draw (.text [66]), .place [2] 20,
    .draw (.addPage 842), .place [1] 30, .fill [1] [65, 65] 16, .draw (.setPage 0), .draw (.text [65]), .fill [2] [66] 2] =
    some [(25, [65, 65]), (66, [66])] := by
  decide +kernel

/-- **C45** (counterexample)  In a document in millimetres the width reserved is not the width asked for: 30 mm move the cursor by
10.58 points instead of 85.04. -/
theorem placeholder_unit_fails :
    (psteps { demoEnv with cfg := ⟨2, 0⟩ } { s := start 842 10 10 } [.place [1] 30]).map (fun p => p.s.cur.x) =
      some (10 + 30 / (72 / (254 / 10))) ∧ toPoints ⟨2, 0⟩ 30 = 30 * (72 / (254 / 10)) := by
  decide +kernel

/-- **C45** (counterexample)  The text is measured with the font current when it is filled in: with a wider current font, "AA"
right aligned in a placeholder of 30 points begins 6 points after its left edge and ends 12 points before its right edge. -/
theorem placeholder_font_fails :
    seen twoFonts [.draw (.setFont 0 0 10), .place [1] 30, .draw (.setFont 1 0 10), .fill [1] [65, 65] 2] = some [(16, [65, 65])] ∧
    seen twoFonts [.draw (.setFont 0 0 10), .place [1] 30, .fill [1] [65, 65] 2] = some [(28, [65, 65])] := by
  decide +kernel

/-- **C45** (counterexample)  Filling in a second time moves the text out of its placeholder: "AA" right aligned in 30 points first
begins 18 points after the left edge, then 36. -/
theorem placeholder_refill_fails :
    seen demoEnv [.draw (.setFont 0 0 10), .place [1] 30, .fill [1] [65, 65] 2] = some [(10 + 18, [65, 65])] ∧
    seen demoEnv [.draw (.setFont 0 0 10), .place [1] 30, .fill [1] [65, 65] 2, .fill [1] [65, 65] 2] = some [(10 + 36, [65, 65])] := by
  decide +kernel

/-- **C45** (counterexample)  An underlined placeholder gets no underline: the line is as wide as the empty placeholder, 0. -/
theorem placeholder_underline_fails :
    (psteps demoEnv { s := start 842 10 10 } [.draw (.setFont 0 4 10), .place [1] 30, .fill [1] [65, 65] 8]).map (fun p =>
      (p.s.pages.getD 0 []).filterMap fun | .text t => some ((underlineOps demoEnv t).filterMap fun | .re _ _ w _ => some w | _ => none)
                                          | _ => none) = some [[0]] := by
  decide +kernel

end Verif.Props
