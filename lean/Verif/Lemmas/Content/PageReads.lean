import Verif.Lemmas.Content.TJReads
/- The remaining operators, the items and the page. -/
namespace Verif.Content
open ContentReader TextRun
open Paint (Op Colour PaintKind Mat)

theorem near_refl {d : ℚ} (h : 0 ≤ d) (a : ℚ) : Near d a a := by simpa [Near] using h

theorem good_rgb (fill : Bool) (r g b : Nat) :
    Good (rgbBytes (if fill then "rg" else "RG") r g b)
      [if fill then .fillColour (rgbColour r g b) else .strokeColour (rgbColour r g b)] := by
  obtain ⟨v1, h1, n1⟩ := isNum_f3 ((r : ℚ) / 255)
  obtain ⟨v2, h2, n2⟩ := isNum_f3 ((g : ℚ) / 255)
  obtain ⟨v3, h3, n3⟩ := isNum_f3 ((b : ℚ) / 255)
  have a := ((Args.num h1 (b := 32) rfl).append (Args.num h2 (b := 32) rfl)).append (Args.num h3 (b := 32) rfl)
  cases fill
  · have := Reads.op (w := [82, 71]) (b := 10) (o := [.strokeColour (.rgb v1 v2 v3)]) a (by opw) (by opw) (by opw) (by opw) rfl
    exact .of (o' := .strokeColour (.rgb v1 v2 v3)) (by simpa [rgbBytes, sp] using this) ⟨n1, n2, n3⟩
  · have := Reads.op (w := [114, 103]) (b := 10) (o := [.fillColour (.rgb v1 v2 v3)]) a (by opw) (by opw) (by opw) (by opw) rfl
    exact .of (o' := .fillColour (.rgb v1 v2 v3)) (by simpa [rgbBytes, sp] using this) ⟨n1, n2, n3⟩

theorem good_cmyk (fill : Bool) (c m y k : Nat) :
    Good (cmykBytes (if fill then "k" else "K") c m y k)
      [if fill then .fillColour (cmykColour c m y k) else .strokeColour (cmykColour c m y k)] := by
  have a := (((Args.num (isNum_percent c) (b := 32) rfl).append (Args.num (isNum_percent m) (b := 32) rfl)).append
    (Args.num (isNum_percent y) (b := 32) rfl)).append (Args.num (isNum_percent k) (b := 32) rfl)
  cases fill
  · have := Reads.op (w := [75]) (b := 10) (o := [.strokeColour (cmykColour c m y k)]) a (by opw) (by opw) (by opw)
      (by simp [operator, cmykColour]) rfl
    exact .exact (by simpa [cmykBytes, sp] using this) (by simp [NearOp, NearColour, cmykColour])
  · have := Reads.op (w := [107]) (b := 10) (o := [.fillColour (cmykColour c m y k)]) a (by opw) (by opw) (by opw)
      (by simp [operator, cmykColour]) rfl
    exact .exact (by simpa [cmykBytes, sp] using this) (by simp [NearOp, NearColour, cmykColour])

theorem good_gray (stroke : Bool) (v : ℚ) :
    Good (fixed 2 v ++ sp ++ (if stroke then lit "G" else lit "g") ++ lit "\n")
      [if stroke then .strokeColour (.gray v) else .fillColour (.gray v)] := by
  obtain ⟨x, h, n⟩ := isNum_f2 v
  have a := Args.num h (b := 32) rfl
  cases stroke
  · have := Reads.op (w := [103]) (b := 10) (o := [.fillColour (.gray x)]) a (by opw) (by opw) (by opw) (by opw) rfl
    exact .of (o' := .fillColour (.gray x)) (by simpa [sp] using this) n
  · have := Reads.op (w := [71]) (b := 10) (o := [.strokeColour (.gray x)]) a (by opw) (by opw) (by opw) (by opw) rfl
    exact .of (o' := .strokeColour (.gray x)) (by simpa [sp] using this) n

theorem good_w (v : ℚ) : Good (fixed 2 v ++ lit " w\n") [.w v] := by
  obtain ⟨x, h, n⟩ := isNum_f2 v
  have := Reads.op (w := [119]) (b := 10) (o := [.w x]) (Args.num h (b := 32) rfl) (by opw) (by opw) (by opw) (by opw) rfl
  exact .of (o' := .w x) (by simpa using this) n

theorem good_Td (x y : ℚ) : Good (pt x y ++ lit " TD\n") [.Td x y] := by
  obtain ⟨v, w, h, hn⟩ := args_pt x y (b := 32) rfl
  have := Reads.op (w := [84, 68]) (b := 10) (o := [.Td v w]) h (by opw) (by opw) (by opw) (by opw) rfl
  exact .of (o' := .Td v w) (by simpa using this) hn

theorem good_Tf (n : Nat) (s c : ℚ) :
    Good (lit "/F" ++ dec n ++ sp ++ trimmed s ++ lit " Tf " ++ trimmed c ++ lit " Tc\n") [.Tf n s, .Tc c] := by
  obtain ⟨v, hv, nv⟩ := isNum_trimmed s
  obtain ⟨u, hu, nu⟩ := isNum_trimmed c
  have a := (Args.name (regular_indexed (p := [70]) (by decide) n) (b := 32) rfl).append (Args.num hv (b := 32) rfl)
  have r1 := Reads.op (w := [84, 102]) (b := 32) (o := [.Tf n v]) a (by opw) (by opw) (by opw)
    (by
      have := indexed_dec [70] n
      simp at this
      simp [operator, this]) rfl
  have r2 := Reads.op (w := [84, 99]) (b := 10) (o := [.Tc u]) (Args.num hu (b := 32) rfl) (by opw) (by opw) (by opw) (by opw) rfl
  refine ⟨[.Tf n v, .Tc u], ?_, .cons ⟨rfl, nv⟩ (.cons nu .nil)⟩
  simpa [sp] using r1.append r2

theorem good_word {w : Bytes} {b : UInt8} {o : Op} (hw : w ≠ []) (hr : ∀ x ∈ w, isRegular x = true)
    (hn : number w = none) (ho : operator w [] = some [o]) (hb : isWhite b = true) (hnear : NearOp o o) :
    Good (w ++ [b]) [o] :=
  .exact (Reads.plain hw hr hn ho hb) (by simpa using hnear)

theorem good_BT : Good (lit "BT\n") [.BT] := by
  have := good_word (w := [66, 84]) (b := 10) (o := .BT) (by opw) (by opw) (by opw) (by opw) rfl (by simp [NearOp])
  simpa using this

theorem good_ET : Good (lit "ET\n") [.ET] := by
  have := good_word (w := [69, 84]) (b := 10) (o := .ET) (by opw) (by opw) (by opw) (by opw) rfl (by simp [NearOp])
  simpa using this

theorem good_clip : Good (lit "h W n\n") [.h, .W false, .n] := by
  have h1 := good_word (w := [104]) (b := 32) (o := .h) (by opw) (by opw) (by opw) (by opw) rfl (by simp [NearOp])
  have h2 := good_word (w := [87]) (b := 32) (o := .W false) (by opw) (by opw) (by opw) (by opw) rfl (by simp [NearOp])
  have h3 := good_word (w := [110]) (b := 10) (o := .n) (by opw) (by opw) (by opw) (by opw) rfl (by simp [NearOp])
  simpa using (h1.append h2).append h3

theorem good_path (h : ℚ) (pts : List (ℚ × ℚ)) : Good (pathBytes h pts) (pathOps h pts) := by
  cases pts with
  | nil => exact .nil
  | cons p rest =>
    have hl : Good (rest.flatMap fun p => pt p.1 (h - p.2) ++ lit " l ") (rest.map fun p => .l (p.1, h - p.2)) := by
      induction rest with
      | nil => exact .nil
      | cons q rest ih =>
        have := (good_l q.1 (h - q.2) (b := 32) rfl).append ih
        simpa using this
    have := (good_m p.1 (h - p.2) (b := 32) rfl).append hl
    simpa [pathBytes, pathOps] using this

/-- Integers written as such. -/
theorem isNum_lit {w : Bytes} {v : ℚ} (h : w ≠ [] ∧ (w.all isRegular) = true ∧ number w = some v) : IsNum w v :=
  ⟨h.1, List.all_eq_true.1 h.2.1, h.2.2⟩

theorem isNum_0 : IsNum [48] 0 := isNum_lit (by decide +kernel)
theorem isNum_1 : IsNum [49] 1 := isNum_lit (by decide +kernel)
theorem isNum_neg1 : IsNum [45, 49] (-1) := isNum_lit (by decide +kernel)

theorem good_rotate (e : Env) (x y angle h : ℚ) : Good (rotateBytes e x y angle h) (rotateOps e x y angle h) := by
  obtain ⟨c1, hc1, nc1⟩ := isNum_f5 (e.cos angle)
  obtain ⟨s1, hs1, ns1⟩ := isNum_f5 (e.sin angle)
  obtain ⟨s2, hs2, ns2⟩ := isNum_f5 (-e.sin angle)
  obtain ⟨v, w, ap, np⟩ := args_pt x (h - y) (b := 32) rfl
  obtain ⟨v', w', ap', np'⟩ := args_pt (-x) (-(h - y)) (b := 32) rfl
  have a := (((((Args.num hc1 (b := 32) rfl).append (Args.num hs1 (b := 32) rfl)).append (Args.num hs2 (b := 10) rfl)).append
    (Args.white (b := 32) rfl)).append (Args.num hc1 (b := 32) rfl)).append ap
  have r1 := Reads.op (w := [99, 109]) (b := 10) (o := [.cm ⟨c1, s1, s2, c1, v, w⟩]) a (by opw) (by opw) (by opw) (by opw) rfl
  have a2 := ((((((Args.white (b := 32) rfl).append (Args.num isNum_1 (b := 32) rfl)).append (Args.num isNum_0 (b := 32) rfl)).append
    (Args.num isNum_0 (b := 10) rfl)).append (Args.white (b := 32) rfl)).append (Args.num isNum_1 (b := 32) rfl)).append ap'
  have r2 := Reads.op (w := [99, 109]) (b := 10) (o := [.cm ⟨1, 0, 0, 1, v', w'⟩]) a2 (by opw) (by opw) (by opw) (by opw) rfl
  refine ⟨[.cm ⟨c1, s1, s2, c1, v, w⟩, .cm ⟨1, 0, 0, 1, v', w'⟩], ?_, .cons ?_ (.cons ?_ .nil)⟩
  · simpa [rotateBytes, sp] using r1.append r2
  · exact ⟨np.1, np.2, .inr ⟨nc1, ns1, ns2, nc1⟩⟩
  · exact ⟨np'.1, np'.2, .inl ⟨rfl, rfl, rfl, rfl, near_refl (by norm_num) _, near_refl (by norm_num) _⟩⟩

/-- A scaling `a 0 0⏎ d e f cm`. -/
theorem good_place (a d e f : ℚ) : Good (fixed 2 a ++ lit " 0 0\n " ++ fixed 2 d ++ sp ++ pt e f ++ [32, 99, 109, 32])
    [.cm ⟨a, 0, 0, d, e, f⟩] := by
  obtain ⟨va, ha, na⟩ := isNum_f2 a
  obtain ⟨vd, hd, nd⟩ := isNum_f2 d
  obtain ⟨v, w, ap, np⟩ := args_pt e f (b := 32) rfl
  have as := (((((Args.num ha (b := 32) rfl).append (Args.num isNum_0 (b := 32) rfl)).append (Args.num isNum_0 (b := 10) rfl)).append
    (Args.white (b := 32) rfl)).append (Args.num hd (b := 32) rfl)).append ap
  have r := Reads.op (w := [99, 109]) (b := 32) (o := [.cm ⟨va, 0, 0, vd, v, w⟩]) as (by opw) (by opw) (by opw) (by opw) rfl
  refine .of (o' := .cm ⟨va, 0, 0, vd, v, w⟩) (by simpa [sp] using r) ⟨np.1, np.2, .inl ⟨rfl, rfl, rfl, rfl, na, nd⟩⟩

theorem good_image (n : Nat) : Good ([47, 73] ++ dec n ++ [32, 68, 111, 32]) [.image n] := by
  have h := Args.name (regular_indexed (p := [73]) (by decide) n) (b := 32) rfl
  have := Reads.op (w := [68, 111]) (b := 32) (o := [.image n]) h (by opw) (by opw) (by opw)
    (by
      have := indexed_dec [73] n
      simp at this
      simp [operator, this]) rfl
  exact .exact (by simpa using this) (by simp [NearOp])

theorem good_flip (hf vf : Bool) :
    Good ((if hf then lit "-1" else lit "1") ++ lit " 0 0 " ++ (if vf then lit "-1" else lit "1") ++ lit " 0 0 cm\n")
      [.cm ⟨if hf then -1 else 1, 0, 0, if vf then -1 else 1, 0, 0⟩] := by
  have num : ∀ b : Bool, IsNum (if b then [45, 49] else [49]) (if b then -1 else 1) := by
    intro b; cases b
    · exact isNum_1
    · exact isNum_neg1
  have a := (((((Args.num (num hf) (b := 32) rfl).append (Args.num isNum_0 (b := 32) rfl)).append
    (Args.num isNum_0 (b := 32) rfl)).append (Args.num (num vf) (b := 32) rfl)).append (Args.num isNum_0 (b := 32) rfl)).append
    (Args.num isNum_0 (b := 32) rfl)
  have r := Reads.op (w := [99, 109]) (b := 10) (o := [.cm ⟨if hf then -1 else 1, 0, 0, if vf then -1 else 1, 0, 0⟩]) a
    (by opw) (by opw) (by opw) (by simp [operator]) rfl
  refine .exact (by cases hf <;> cases vf <;> simpa using r) ?_
  intro x hx
  rw [List.mem_singleton] at hx
  subst hx
  exact ⟨near_refl (by norm_num) _, near_refl (by norm_num) _,
    .inl ⟨rfl, rfl, rfl, rfl, near_refl (by norm_num) _, near_refl (by norm_num) _⟩⟩

theorem good_clipRect (x y w h : ℚ) : Good (reBytes x y w h ++ lit " W* n\n") [.re x y w h, .W true, .n] := by
  have h1 := good_re x y w h (b := 32) rfl
  have h2 := good_word (w := [87, 42]) (b := 32) (o := .W true) (by opw) (by opw) (by opw) (by opw) rfl (by simp [NearOp])
  have h3 := good_word (w := [110]) (b := 10) (o := .n) (by opw) (by opw) (by opw) (by opw) rfl (by simp [NearOp])
  simpa using (h1.append h2).append h3

theorem good_if {c : Prop} [Decidable c] {s : Bytes} {o : List Op} (h : Good s o) :
    Good (if c then s else []) (if c then o else []) := by
  split
  · exact h
  · exact .nil

theorem good_imageInner (e : Env) (i : ImageItem) : Good (imageInnerBytes e i) (imageInner e i) := by
  have hflip : Good (if (i.horizontalFlip || i.verticalFlip) = true then
      (if i.horizontalFlip then lit "-1" else lit "1") ++ lit " 0 0 " ++ (if i.verticalFlip then lit "-1" else lit "1") ++
      lit " 0 0 cm\n" else []) (if (i.horizontalFlip || i.verticalFlip) = true then [.cm i.flipMat] else []) :=
    good_if (good_flip i.horizontalFlip i.verticalFlip)
  have hclip : Good (match i.clipRect with | some (x, y, w, h) => reBytes x y w h ++ lit " W* n\n" | none => [])
      (match i.clipRect with | some (x, y, w, h) => [Op.re x y w h, .W true, .n] | none => []) := by
    cases i.clipRect with
    | none => exact .nil
    | some r => exact good_clipRect _ _ _ _
  have hrot : Good (if i.maskRotates = true then
      rotateBytes e (i.x + i.rect.w / 2) (i.y + i.rect.h / 2) (i.maskAngle + i.imageAngle) i.pageHeight else [])
      (if i.maskRotates = true then
        rotateOps e (i.x + i.rect.w / 2) (i.y + i.rect.h / 2) (i.maskAngle + i.imageAngle) i.pageHeight else []) :=
    good_if (good_rotate e _ _ _ _)
  have hplace := good_place i.place.a i.place.d i.place.e i.place.f
  have e1 : (⟨i.place.a, 0, 0, i.place.d, i.place.e, i.place.f⟩ : Mat) = i.place := rfl
  rw [e1] at hplace
  have h := ((((((((((good_q.append (good_ext i.ext)).append hflip).append hclip).append good_q).append
    (good_white (b := 32) rfl)).append hrot).append (good_white (b := 32) rfl)).append hplace).append
    (good_image (i.index + 1))).append (good_white (b := 10) rfl)).append (good_Q.append good_Q)
  have ho : imageInner e i = ((((((((((([.q] : List Op) ++ (i.ext.map Op.gs)) ++
      (if (i.horizontalFlip || i.verticalFlip) = true then [.cm i.flipMat] else [])) ++
      (match i.clipRect with | some (x, y, w, h) => [Op.re x y w h, .W true, .n] | none => [])) ++ [.q]) ++ []) ++
      (if i.maskRotates = true then
        rotateOps e (i.x + i.rect.w / 2) (i.y + i.rect.h / 2) (i.maskAngle + i.imageAngle) i.pageHeight else [])) ++ []) ++
      [.cm i.place]) ++ [.image (i.index + 1)]) ++ []) ++ ([.Q] ++ [.Q]) := by
    simp [imageInner]
    cases i.clipRect <;> rfl
  rw [ho]
  have hb : imageInnerBytes e i = ((((((((((lit "q\n" ++ extBytes i.ext) ++
      (if (i.horizontalFlip || i.verticalFlip) = true then
      (if i.horizontalFlip then lit "-1" else lit "1") ++ lit " 0 0 " ++ (if i.verticalFlip then lit "-1" else lit "1") ++
      lit " 0 0 cm\n" else [])) ++
      (match i.clipRect with | some (x, y, w, h) => reBytes x y w h ++ lit " W* n\n" | none => [])) ++ lit "q\n") ++ [32]) ++
      (if i.maskRotates = true then
      rotateBytes e (i.x + i.rect.w / 2) (i.y + i.rect.h / 2) (i.maskAngle + i.imageAngle) i.pageHeight else [])) ++ [32]) ++
      (fixed 2 i.place.a ++ lit " 0 0\n " ++ fixed 2 i.place.d ++ sp ++ pt i.place.e i.place.f ++ [32, 99, 109, 32])) ++
      ([47, 73] ++ dec (i.index + 1) ++ [32, 68, 111, 32])) ++ [10]) ++ (lit "Q\n" ++ lit "Q\n") := by
    simp [imageInnerBytes, sp]
    cases i.clipRect <;> simp
  rw [hb]
  exact h

theorem good_imageItem (e : Env) (i : ImageItem) : Good (imageBytes e i) (imageOps e i) := by
  unfold imageBytes imageOps
  split
  · exact good_imageInner e i
  · have h := (((good_q.append (good_white (b := 32) rfl)).append (good_rotate e (i.x + i.cropSize.1 / 2)
      (i.y + i.cropSize.2 / 2) i.imageAngle i.pageHeight)).append (good_imageInner e i)).append good_Q
    have e1 : lit "q\n" ++ [32] = lit "q\n " := by simp
    rw [e1] at h
    simpa [-lit_0] using h

/-- The array of a dash. -/
theorem args_slice (a : List ℚ) : ∃ els a', Args (sliceBytes a ++ [32]) [.arr els] ∧ nums els = some a' ∧
    List.Forall₂ (Near (1 / 200)) a' a := by
  cases a with
  | nil =>
    refine ⟨[], [], ⟨[.opening, .closing], ?_, fun l => ?_⟩, rfl, .nil⟩
    · simp only [sliceBytes]; decide +kernel
    · simp [parseAll, parse]
  | cons x rest =>
    have key : ∀ (rest : List ℚ) (w : Bytes) (v : ℚ), IsNum w v → ∃ ts els a',
        feedAll (.word w) (rest.flatMap (fun b => sp ++ fixed 2 b) ++ [93]) = some (ts, .gap) ∧
        (∀ l acc, parseAll ⟨l, some acc⟩ ts = some ([], ⟨l ++ [.arr (acc ++ els)], none⟩)) ∧ nums els = some (v :: a') ∧
        List.Forall₂ (Near (1 / 200)) a' rest := by
      intro rest
      induction rest with
      | nil =>
        intro w v hw
        refine ⟨[.word w, .closing], [.num v], [], ?_, fun l acc => ?_, rfl, .nil⟩
        · simp [feedAll, feed, show isRegular 93 = false by decide, boundary, isWhite]
        · simp [parseAll, parse, hw.2.2]
      | cons y rest ih =>
        intro w v hw
        obtain ⟨u, hu, nu⟩ := isNum_f2 y
        obtain ⟨ts, els, a', h1, h2, h3, h4⟩ := ih _ _ hu
        refine ⟨.word w :: ts, .num v :: els, u :: a', ?_, fun l acc => ?_, by simp [nums, h3], .cons nu h4⟩
        · have e1 : feedAll (.word w) [32] = some ([.word w], .gap) := by
            simp [feedAll, feed, show isRegular 32 = false by decide, boundary, isWhite]
          rw [List.flatMap_cons, sp, List.append_assoc, List.append_assoc, feedAll_append, e1]
          simp only [Option.bind_some]
          rw [feedAll_append, feed_gap hu.1 hu.2.1]
          simp only [Option.bind_some]
          have h1 : feedAll (.word (fixed 2 y)) (rest.flatMap (fun b => sp ++ fixed 2 b) ++ [93]) = some (ts, .gap) := h1
          rw [sp] at h1
          rw [h1]
          simp
        · simp only [parseAll, parse, hw.2.2, Option.bind_some]
          rw [h2]
          simp
    obtain ⟨u, hu, nu⟩ := isNum_f2 x
    obtain ⟨ts, els, a', h1, h2, h3, h4⟩ := key rest _ _ hu
    refine ⟨els, u :: a', ⟨.opening :: ts, ?_, fun l => ?_⟩, h3, .cons nu h4⟩
    · have e1 : feedAll .gap [91] = some ([.opening], .gap) := by decide
      have e2 : feedAll .gap [32] = some ([], .gap) := by decide
      have eb : sliceBytes (x :: rest) ++ [32] =
          [91] ++ (fixed 2 x ++ ((rest.flatMap (fun b => sp ++ fixed 2 b) ++ [93]) ++ [32])) := by
        simp [sliceBytes]
      rw [eb, feedAll_append, e1]
      simp only [Option.bind_some]
      rw [feedAll_append, feed_gap hu.1 hu.2.1]
      simp only [Option.bind_some]
      rw [feedAll_append, h1]
      simp [e2]
    · simp only [parseAll, parse, Option.isSome_none, Bool.false_eq_true, if_false, Option.bind_some]
      rw [h2]
      simp

theorem good_dash (a : List ℚ) (p : ℚ) : Good (sliceBytes a ++ sp ++ fixed 2 p ++ lit " d\n") [.d a p] := by
  obtain ⟨els, a', h1, h2, h3⟩ := args_slice a
  obtain ⟨v, hv, nv⟩ := isNum_f2 p
  have := Reads.op (w := [100]) (b := 10) (o := [.d a' v]) (h1.append (Args.num hv (b := 32) rfl)) (by opw) (by opw) (by opw)
    (by simp [operator, h2]) rfl
  exact .of (o' := .d a' v) (by simpa [sp] using this) ⟨h3, nv⟩

theorem good_lineType (a b : Bool) : Good (lineTypeBytes a b)
    [if a then .d [5] 2 else if b then .d [2, 3] 11 else .d [] 0] := by
  have key : ∀ (s : Bytes) (l : List ℚ) (p : ℚ) (ts : List Token), feedAll .gap s = some (ts, .gap) →
      parseAll {} ts = some ([.d l p], {}) → Good s [.d l p] := by
    intro s l p ts h1 h2
    refine .exact ⟨ts, h1, h2⟩ ?_
    simp only [List.mem_singleton, forall_eq, NearOp]
    refine ⟨?_, near_refl (by norm_num) _⟩
    clear h1 h2
    induction l with
    | nil => exact .nil
    | cons x l ih => exact .cons (near_refl (by norm_num) _) ih
  unfold lineTypeBytes
  cases a
  · cases b
    · exact key _ _ _ [.opening, .closing, .word [48], .word [100]] (by decide +kernel) (by decide +kernel)
    · exact key _ _ _ [.opening, .word [50], .word [51], .closing, .word [49, 49], .word [100]] (by decide +kernel)
        (by decide +kernel)
  · rw [if_pos rfl, if_pos rfl]
    exact key _ _ _ [.opening, .word [53], .closing, .word [50], .word [100]] (by decide +kernel) (by decide +kernel)

theorem good_colourSpace (n : Nat) : Good (lit "/CS" ++ dec n ++ lit " CS 1.0000 SCN\n") [.strokeColour (.named n)] := by
  have h := Args.name (regular_indexed (p := [67, 83]) (by decide) n) (b := 32) rfl
  have r1 := Reads.op (w := [67, 83]) (b := 32) (o := [.strokeColour (.named n)]) h (by opw) (by opw) (by opw)
    (by
      have := indexed_dec [67, 83] n
      simp at this
      simp [operator, this]) rfl
  have h1 : IsNum [49, 46, 48, 48, 48, 48] 1 := isNum_lit (by decide +kernel)
  have r2 := Reads.op (w := [83, 67, 78]) (b := 10) (o := []) (Args.num h1 (b := 32) rfl) (by opw) (by opw) (by opw) (by opw) rfl
  exact .exact (by simpa using r1.append r2) (by simp [NearOp, NearColour])

theorem good_template (h sx sy tx ty : ℚ) (name : Bytes) (hname : TemplateName name) (e : Env) :
    Good (itemBytes e (.template h sx sy tx ty name)) (ops e (.template h sx sy tx ty name)) := by
  obtain ⟨n, rfl, hr, hi⟩ := hname
  have q32 := good_word (w := [113]) (b := 32) (o := .q) (by opw) (by opw) (by opw) (by opw) rfl (by simp [NearOp])
  have Q32 := good_word (w := [81]) (b := 32) (o := .Q) (by opw) (by opw) (by opw) (by opw) rfl (by simp [NearOp])
  have hJ : Good [48, 32, 74, 32] [.J 0] := .exact (by
    simpa using Reads.op (w := [74]) (b := 32) (o := [.J 0]) (Args.num isNum_0 (b := 32) rfl) (by opw) (by opw) (by opw)
      (by simp [operator]; decide) rfl) (by simp [NearOp])
  have hw : Good [49, 32, 119, 32] [.w 1] := .exact (by
    simpa using Reads.op (w := [119]) (b := 32) (o := [.w 1]) (Args.num isNum_1 (b := 32) rfl) (by opw) (by opw) (by opw)
      (by opw) rfl) (by simp [NearOp, Near])
  have hj : Good [48, 32, 106, 32] [.j 0] := .exact (by
    simpa using Reads.op (w := [106]) (b := 32) (o := [.j 0]) (Args.num isNum_0 (b := 32) rfl) (by opw) (by opw) (by opw)
      (by simp [operator]; decide) rfl) (by simp [NearOp])
  have hG : Good [48, 32, 71, 32] [.strokeColour (.gray 0)] := .exact (by
    simpa using Reads.op (w := [71]) (b := 32) (o := [.strokeColour (.gray 0)]) (Args.num isNum_0 (b := 32) rfl) (by opw) (by opw)
      (by opw) (by opw) rfl) (by simp [NearOp, NearColour, Near])
  have hg : Good [48, 32, 103, 32] [.fillColour (.gray 0)] := .exact (by
    simpa using Reads.op (w := [103]) (b := 32) (o := [.fillColour (.gray 0)]) (Args.num isNum_0 (b := 32) rfl) (by opw) (by opw)
      (by opw) (by opw) rfl) (by simp [NearOp, NearColour, Near])
  obtain ⟨v1, h1, n1⟩ := isNum_f4 sx
  obtain ⟨v2, h2, n2⟩ := isNum_f4 sy
  obtain ⟨v3, h3, n3⟩ := isNum_f4 tx
  obtain ⟨v4, h4, n4⟩ := isNum_f4 (ty + h)
  have a := (((((Args.num h1 (b := 32) rfl).append (Args.num isNum_0 (b := 32) rfl)).append (Args.num isNum_0 (b := 32) rfl)).append
    (Args.num h2 (b := 32) rfl)).append (Args.num h3 (b := 32) rfl)).append (Args.num h4 (b := 32) rfl)
  have rc := Reads.op (w := [99, 109]) (b := 32) (o := [.cm ⟨v1, 0, 0, v2, v3, v4⟩]) a (by opw) (by opw) (by opw) (by opw) rfl
  have hcm := Good.of (o := .cm ⟨sx, 0, 0, sy, tx, ty + h⟩) rc ⟨n3, n4, .inl ⟨rfl, rfl, rfl, rfl, n1, n2⟩⟩
  have rd := Reads.op (w := [68, 111]) (b := 32) (o := [.template (47 :: n)]) (Args.name hr (b := 32) rfl) (by opw) (by opw)
    (by opw) (by
      simp at hi
      simp [operator, hi]) rfl
  have hdo := Good.exact rd (by simp [NearOp])
  have all := (((((((((q32.append hJ).append hw).append hj).append hG).append hg).append q32).append hcm).append hdo).append
    Q32).append good_Q
  simpa [itemBytes, ops, sp] using all

theorem good_colourBytes (t : TextItem) : Good (colourBytes t) (colourOps t) := by
  unfold colourBytes colourOps
  split
  · cases t.colour with
    | none => exact .nil
    | some c =>
      cases c with
      | rgb r g b => exact good_rgb true r g b
      | cmyk c m y k => exact good_cmyk true c m y k
  · exact .nil

theorem good_underline (e : Env) (t : TextItem) : Good (underlineBytes e t) (underlineOps e t) := by
  unfold underlineBytes underlineOps
  dsimp only
  have h := (good_re t.x (t.pageHeight - t.y + px (e.fonts t.font).underlinePosition (e.fonts t.font) t.fontSize *
    (if t.opt.coefUnderlinePosition ≠ 0 then t.opt.coefUnderlinePosition else 1) -
    (px (e.fonts t.font).ascender (e.fonts t.font) t.fontSize +
      (px (e.fonts t.font).ascender (e.fonts t.font) t.fontSize +
        -px (e.fonts t.font).descender (e.fonts t.font) t.fontSize -
        (if t.opt.coefLineHeight ≠ 0 then t.opt.coefLineHeight else 1) * t.fontSize) / 2)) t.cellWidth
    (px (e.fonts t.font).underlineThickness (e.fonts t.font) t.fontSize *
      (if t.opt.coefUnderlineThickness ≠ 0 then t.opt.coefUnderlineThickness else 1)) (b := 32) rfl).append good_f
  simpa using h

theorem good_borderLine (x1 y1 x2 y2 : ℚ) : Good (borderLineBytes x1 y1 x2 y2) (borderLine x1 y1 x2 y2) := by
  have h := ((good_m x1 y1 (b := 32) rfl).append (good_l x2 y2 (b := 32) rfl)).append good_s
  simpa [borderLineBytes, borderLine] using h

theorem good_border (t : TextItem) : Good (borderBytes t) (borderOps t) := by
  unfold borderBytes borderOps
  dsimp only
  exact (((good_if (good_borderLine _ _ _ _)).append (good_if (good_borderLine _ _ _ _))).append
    (good_if (good_borderLine _ _ _ _))).append (good_if (good_borderLine _ _ _ _))

/-- Every glyph number of the font fits in two bytes. -/
def TwoByte (f : Font) : Prop := ∀ r g, f.run.map.val r = some g → g < 65536

theorem small_tjLoop {f : RunFont} (hf : ∀ r g, f.map.val r = some g → g < 65536) (j : Just) :
    ∀ (l : List (Nat × Nat)) (left : Nat × Nat), Small (tjLoop f j left l)
  | [], _ => by simp [tjLoop, Small]
  | (i, r) :: rest, left => by
    intro g hg
    cases hv : f.map.val r with
    | none => simp only [tjLoop, hv] at hg; exact small_tjLoop hf j rest left g hg
    | some k =>
      simp only [tjLoop, hv, List.mem_append] at hg
      rcases hg with ((hg | hg) | hg) | hg
      · split at hg <;> simp at hg
      · simp only [List.mem_singleton, TJ.glyph.injEq] at hg; subst hg; exact hf r _ hv
      · split at hg
        · split at hg <;> simp at hg
        · simp at hg
      · exact small_tjLoop hf j rest (r, k) g hg

theorem good_textItem (e : Env) (t : TextItem) (hf : TwoByte (e.fonts t.font)) : Good (textBytes e t) (textOps e t) := by
  have hTJ := good_TJ (small_tjLoop (f := (e.fonts t.font).run) hf (justOf t) (withIndex 0 t.text) (0, 0))
  have h := (((((((((good_if (c := t.opt.ext ≠ []) good_q).append (good_ext t.opt.ext)).append good_BT).append
    (good_Td (calX t) (calY e t))).append (good_Tf t.font t.fontSize t.charSpacing)).append (good_colourBytes t)).append
    hTJ).append good_ET).append (good_if (c := has t.fontStyle underline = true) (good_underline e t))).append
    (good_border t)
  have h := h.append (good_if (c := t.opt.ext ≠ []) good_Q)
  unfold textBytes textOps
  have e : ∀ (a b c d f g h i j : List Op) (x1 x2 x3 x4 x5 x6 : Op), (((((((((a ++ b) ++ [x1]) ++ [x2]) ++ [x3, x4]) ++ c) ++
      [x5]) ++ [x6]) ++ d) ++ f) ++ g = a ++ b ++ [x1, x2, x3, x4] ++ c ++ [x5, x6] ++ d ++ f ++ g := by
    intros; simp
  rw [e] at h
  · exact h
  all_goals exact []

/-- What an item needs to be written in a readable way. -/
def Writable (e : Env) : Item → Prop
  | .text t => TwoByte (e.fonts t.font)
  | .template _ _ _ _ _ name => TemplateName name
  | _ => True

theorem good_item (e : Env) (i : Item) (hw : Writable e i) : Good (itemBytes e i) (ops e i) := by
  cases i with
  | text t => exact good_textItem e t hw
  | line h x1 y1 x2 y2 ext =>
    have := ((((good_q.append (good_ext ext)).append (good_m x1 (h - y1) (b := 32) rfl)).append
      (good_l x2 (h - y2) (b := 32) rfl)).append good_S).append good_Q
    simpa [itemBytes, ops] using this
  | rectangle h x y wd ht st ext =>
    have := (((good_q.append (good_ext ext)).append (good_re x (h - y) wd ht (b := 32) rfl)).append
      (good_paintByte st)).append good_Q
    simpa [itemBytes, ops, sp] using this
  | polygon h pts st ext =>
    have := (((good_q.append (good_ext ext)).append (good_path h pts)).append (good_polygonEnd st)).append good_Q
    simpa [itemBytes, ops] using this
  | oval h x1 y1 x2 y2 =>
    simp only [itemBytes, ops]
    have := ((((good_m (x1 + (x2 - x1) / 2) (h - y2) (b := 10) rfl).append
      (good_c (x1 + (x2 - x1) / 2 + (x2 - x1) / 2 * (55228 / 100000), h - y2)
        (x2, h - (y1 + (y2 - y1) / 2) - (y2 - y1) / 2 * (55228 / 100000)) (x2, h - (y1 + (y2 - y1) / 2)) (b := 10) rfl)).append
      (good_c (x2, h - (y1 + (y2 - y1) / 2) + (y2 - y1) / 2 * (55228 / 100000))
        (x1 + (x2 - x1) / 2 + (x2 - x1) / 2 * (55228 / 100000), h - y1) (x1 + (x2 - x1) / 2, h - y1) (b := 10) rfl)).append
      (good_c (x1 + (x2 - x1) / 2 - (x2 - x1) / 2 * (55228 / 100000), h - y1)
        (x1, h - (y1 + (y2 - y1) / 2) + (y2 - y1) / 2 * (55228 / 100000)) (x1, h - (y1 + (y2 - y1) / 2)) (b := 10) rfl)).append
      ((good_c (x1, h - (y1 + (y2 - y1) / 2) - (y2 - y1) / 2 * (55228 / 100000))
        (x1 + (x2 - x1) / 2 - (x2 - x1) / 2 * (55228 / 100000), h - y2) (x1 + (x2 - x1) / 2, h - y2) (b := 32) rfl).append good_S)
    simpa using this
  | curve h p0 p1 p2 p3 st =>
    have := ((good_m p0.1 (h - p0.2) (b := 10) rfl).append (good_c (p1.1, h - p1.2) (p2.1, h - p2.2) (p3.1, h - p3.2)
      (b := 32) rfl)).append (good_paintByte st)
    simpa [itemBytes, ops, sp] using this
  | clipPolygon h pts =>
    have := (good_path h pts).append good_clip
    simpa [itemBytes, ops] using this
  | image i => exact good_imageItem e i
  | template h sx sy tx ty name => exact good_template h sx sy tx ty name hw e
  | rotate h a x y =>
    have := (good_q.append (good_white (b := 32) rfl)).append (good_rotate e x y a h)
    simpa [itemBytes, ops] using this
  | rotateReset => exact good_Q
  | save => exact good_q
  | restore => exact good_Q
  | gray st v => exact good_gray st v
  | rgb st r g b => have := good_rgb (!st) r g b; cases st <;> exact this
  | cmyk st c m y k => have := good_cmyk (!st) c m y k; cases st <;> exact this
  | lineWidth x => exact good_w x
  | dash a ph => exact good_dash a ph
  | lineType a b => exact good_lineType a b
  | colourSpace n => exact good_colourSpace (n + 1)

theorem good_page (e : Env) (items : List Item) (hw : ∀ i ∈ items, Writable e i) :
    Good (items.flatMap (itemBytes e)) (pageOps e items) := by
  induction items with
  | nil => exact .nil
  | cons i items ih =>
    have := (good_item e i (hw i (by simp))).append (ih (fun j hj => hw j (by simp [hj])))
    simpa [pageOps] using this

end Verif.Content
