import Verif.Lemmas.Caller
/- Variables the caller passes by reference: dash slices, crop windows, masks, transparency settings. -/
namespace Verif.Caller
open Units

/-- **C74** A program that leaves alone what it has given away gets what it asked for: in the file each custom line type, crop window, mask and
transparency setting has the value the caller's variable had when it was passed, converted to points once, whatever is done later with variables of
its own. What may still be done with a variable that was given away is in `LeavesAlone`: if lengths are in points, anything but changing it. No
setting is almost opaque (1.000 in print without being 1). -/
theorem given_values_are_written (c : Cfg) (mill : ℚ → Int) (m : Mem) (p : List Act) (points : Bool)
    (hp : points = true → (∀ u, toPoints c u = u) ∧ factor c.unit = 1) (hl : LeavesAlone points p)
    (ho : ∀ t, Settings m p t → mill t.alpha = mill 1 → t.alpha = 1) :
    written c mill m p = asked c mill m none p := by
  have := run_shown (mill := mill) hp p { mem := m } m none hl
    ⟨fun _ _ => rfl, rfl, fun _ _ => rfl, rfl, fun x hx => by simp at hx, fun k hk => by simp at hk, fun _ => rfl⟩ ho
  simpa [written] using this

/-- **C74** The caller's variables after a program: crop windows and transparency settings are as the caller left them; so are all slices and masks
if lengths are in points, else those that were not passed. -/
theorem variables_kept (c : Cfg) (mill : ℚ → Int) (m : Mem) (p : List Act) :
    (State.run c mill { mem := m } p).mem.crop = (p.foldl Mem.assign m).crop ∧
    (State.run c mill { mem := m } p).mem.tr = (p.foldl Mem.assign m).tr ∧
    (∀ r, (∀ q, .lineType r q ∉ p) → (State.run c mill { mem := m } p).mem.dash r = (p.foldl Mem.assign m).dash r) ∧
    (∀ r, .masked r ∉ p → (State.run c mill { mem := m } p).mem.mask r = (p.foldl Mem.assign m).mask r) := by
  suffices h : ∀ (p : List Act) (s : State) (m : Mem),
      (s.mem.crop = m.crop → (s.run c mill p).mem.crop = (p.foldl Mem.assign m).crop) ∧
      (s.mem.tr = m.tr → (s.run c mill p).mem.tr = (p.foldl Mem.assign m).tr) ∧
      (∀ r, s.mem.dash r = m.dash r → (∀ q, .lineType r q ∉ p) → (s.run c mill p).mem.dash r = (p.foldl Mem.assign m).dash r) ∧
      (∀ r, s.mem.mask r = m.mask r → .masked r ∉ p → (s.run c mill p).mem.mask r = (p.foldl Mem.assign m).mask r) by
    exact ⟨(h p _ m).1 rfl, (h p _ m).2.1 rfl, fun r => (h p _ m).2.2.1 r rfl, fun r => (h p _ m).2.2.2 r rfl⟩
  intro p
  induction p with
  | nil => intro s m; exact ⟨id, id, fun _ h _ => h, fun _ h _ => h⟩
  | cons a p ih =>
    intro s m
    rw [run_cons, List.foldl_cons]
    obtain ⟨h1, h2, h3, h4⟩ := ih (s.step c mill a) (m.assign a)
    refine ⟨fun h => h1 ?_, fun h => h2 ?_, fun r h hn => h3 r ?_ fun q hq => hn q (List.mem_cons_of_mem _ hq),
      fun r h hn => h4 r ?_ fun hq => hn (List.mem_cons_of_mem _ hq)⟩
    · cases a with
      | draw o => cases o <;> simp [State.step, save_mem, h, Mem.assign]
      | setTransparency v => simp [State.step, save_mem, h, Mem.assign]
      | _ => simp [State.step, Mem.assign, h]
    · cases a with
      | draw o => cases o <;> simp [State.step, save_mem, h, Mem.assign]
      | setTransparency v => simp [State.step, save_mem, h, Mem.assign]
      | _ => simp [State.step, Mem.assign, h]
    · cases a with
      | draw o => cases o <;> simp [State.step, save_mem, h, Mem.assign]
      | setTransparency v => simp [State.step, save_mem, h, Mem.assign]
      | lineType q ph =>
        have : r ≠ q := fun e => hn ph (e ▸ List.mem_cons_self)
        simp [State.step, Mem.assign, Function.update, this, h]
      | setDash q v => simp only [State.step, Mem.assign, Function.update]; split <;> simp [h]
      | _ => simp [State.step, Mem.assign, h]
    · cases a with
      | draw o => cases o <;> simp [State.step, save_mem, h, Mem.assign]
      | setTransparency v => simp [State.step, save_mem, h, Mem.assign]
      | masked q =>
        have : r ≠ q := fun e => hn (e ▸ List.mem_cons_self)
        simp [State.step, Mem.assign, Function.update, this, h]
      | setMask q v => simp only [State.step, Mem.assign, Function.update]; split <;> simp [h]
      | _ => simp [State.step, Mem.assign, h]

/-- Zeros everywhere; alpha 1. -/
def blank : Mem := { dash := fun _ => [], crop := fun _ => ⟨0, 0, 0, 0⟩, mask := fun _ => ⟨0, 0, none⟩, tr := fun _ => ⟨1, 0⟩ }

/-- Thousandths, rounded down (enough for the examples). -/
def thousandths (a : ℚ) : Int := (a * 1000).floor

/-- A program that uses everything and leaves alone what it gives away, in millimetres. -/
def careful : List Act :=
  [.setDash 0 [254 / 10, 0], .lineType 0 (254 / 10), .setDash 1 [127 / 10], .lineType 1 0, .setCrop 0 ⟨1, 2, 3, 4⟩, .cropped 0, .cropped 0,
   .setMask 0 ⟨254 / 10, 0, some { w := 254 / 10, h := 0 }⟩, .masked 0, .setMask 0 ⟨127 / 10, 0, none⟩, .masked 0,
   .setTransparency ⟨1 / 2, 0⟩, .draw none, .setTr 3 ⟨1 / 4, 1⟩, .draw (some 3), .setTr 4 ⟨1 / 4, 1⟩, .draw (some 4), .clearTransparency, .draw none]

example : LeavesAlone false careful := by simp [careful, LeavesAlone, Reuses]

example : ∀ t, Settings blank careful t → thousandths t.alpha = thousandths 1 → t.alpha = 1 := by
  rintro t (⟨r, hr⟩ | ⟨r, hr⟩ | hr)
  · rw [← hr]; exact fun _ => rfl
  · simp [careful] at hr
    rcases hr with ⟨_, rfl⟩ | ⟨_, rfl⟩ <;> (intro h; revert h; decide +kernel)
  · simp [careful] at hr
    subst hr; intro h; revert h; decide +kernel

example : written ⟨2, 0⟩ thousandths blank careful =
    [.dash [72, 0] 72, .dash [36] 0, .crop ⟨1, 2, 3, 4⟩, .crop ⟨1, 2, 3, 4⟩, .mask ⟨72, 0, some { w := 72, h := 0 }⟩, .mask ⟨36, 0, none⟩,
     .alpha (some (500, 0)), .alpha (some (250, 1)), .alpha (some (250, 1)), .alpha none] := by decide +kernel

/-- **C74** The same dash slice passed twice, in millimetres: both lines are drawn with lengths converted twice. -/
theorem slice_twice_fails : written ⟨2, 0⟩ thousandths blank [.setDash 0 [254 / 10], .lineType 0 0, .lineType 0 0] ≠
    asked ⟨2, 0⟩ thousandths blank none [.setDash 0 [254 / 10], .lineType 0 0, .lineType 0 0] := by decide +kernel

/-- **C74** A dash slice changed after the call: the line already drawn changes, even in points. -/
theorem slice_changed_fails : written ⟨1, 0⟩ thousandths blank [.setDash 0 [3], .lineType 0 0, .setDash 0 [5], .lineType 0 0] ≠
    asked ⟨1, 0⟩ thousandths blank none [.setDash 0 [3], .lineType 0 0, .setDash 0 [5], .lineType 0 0] := by decide +kernel

/-- **C74** One crop window for two images, changed in between: both images are cropped by the second window. -/
theorem crop_changed_fails : written ⟨1, 0⟩ thousandths blank [.setCrop 0 ⟨0, 0, 1, 1⟩, .cropped 0, .setCrop 0 ⟨5, 5, 1, 1⟩, .cropped 0] ≠
    asked ⟨1, 0⟩ thousandths blank none [.setCrop 0 ⟨0, 0, 1, 1⟩, .cropped 0, .setCrop 0 ⟨5, 5, 1, 1⟩, .cropped 0] := by decide +kernel

/-- **C74** One mask for two images, in millimetres: the second time its place is converted again. -/
theorem mask_twice_fails : written ⟨2, 0⟩ thousandths blank [.setMask 0 ⟨254 / 10, 0, none⟩, .masked 0, .masked 0] ≠
    asked ⟨2, 0⟩ thousandths blank none [.setMask 0 ⟨254 / 10, 0, none⟩, .masked 0, .masked 0] := by decide +kernel

/-- **C74** A transparency struct changed after a drawing: the drawing changes, and so does every other drawing of the former setting. -/
theorem transparency_changed_fails :
    written ⟨1, 0⟩ thousandths blank [.setTr 0 ⟨1 / 2, 0⟩, .draw (some 0), .setTr 0 ⟨1 / 4, 0⟩, .draw (some 0), .setTr 1 ⟨1 / 2, 0⟩, .draw (some 1)] =
      [.alpha (some (250, 0)), .alpha (some (250, 0)), .alpha (some (250, 0))] ∧
    asked ⟨1, 0⟩ thousandths blank none [.setTr 0 ⟨1 / 2, 0⟩, .draw (some 0), .setTr 0 ⟨1 / 4, 0⟩, .draw (some 0), .setTr 1 ⟨1 / 2, 0⟩, .draw (some 1)] =
      [.alpha (some (500, 0)), .alpha (some (250, 0)), .alpha (some (500, 0))] := by decide +kernel

end Verif.Caller
