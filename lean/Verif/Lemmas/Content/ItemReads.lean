import Verif.Lemmas.Content.Reads
import Verif.Lemmas.Content.Literals
/- What each item writes is read back as its operators. -/
namespace Verif.Content
open ContentReader TextRun
open Paint (Op Colour PaintKind)

theorem args_pt (x y : ℚ) {b : UInt8} (hb : isWhite b = true) :
    ∃ v w, Args (pt x y ++ [b]) [.num v, .num w] ∧ NearPt (v, w) (x, y) := by
  obtain ⟨v, h1, n1⟩ := isNum_f2 x
  obtain ⟨w, h2, n2⟩ := isNum_f2 y
  refine ⟨v, w, ?_, n1, n2⟩
  have := (Args.num h1 (b := 32) rfl).append (Args.num h2 hb)
  simpa [pt, sp] using this

/-- The side conditions of an operator word. -/
macro "opw" : tactic => `(tactic| first | decide | decide +kernel | (simp [operator, painting]; done))

theorem good_q : Good (lit "q\n") [.q] := by
  have := Reads.plain (w := [113]) (b := 10) (o := [.q]) (by opw) (by opw) (by opw) (by opw) (by opw)
  exact .exact (by simpa using this) (by simp [NearOp])

theorem good_Q : Good (lit "Q\n") [.Q] := by
  have := Reads.plain (w := [81]) (b := 10) (o := [.Q]) (by opw) (by opw) (by opw) (by opw) (by opw)
  exact .exact (by simpa using this) (by simp [NearOp])

theorem good_white {b : UInt8} (hb : isWhite b = true) : Good [b] [] := ⟨[], .white hb, .nil⟩

theorem good_m (x y : ℚ) {b : UInt8} (hb : isWhite b = true) : Good (pt x y ++ [32, 109, b]) [.m (x, y)] := by
  obtain ⟨v, w, h, hn⟩ := args_pt x y (b := 32) rfl
  have := Reads.op (w := [109]) (o := [.m (v, w)]) h (by opw) (by opw) (by opw) (by opw) hb
  exact .of (o' := .m (v, w)) (by simpa using this) hn

theorem good_l (x y : ℚ) {b : UInt8} (hb : isWhite b = true) : Good (pt x y ++ [32, 108, b]) [.l (x, y)] := by
  obtain ⟨v, w, h, hn⟩ := args_pt x y (b := 32) rfl
  have := Reads.op (w := [108]) (o := [.l (v, w)]) h (by opw) (by opw) (by opw) (by opw) hb
  exact .of (o' := .l (v, w)) (by simpa using this) hn

theorem good_re (x y w h : ℚ) {b : UInt8} (hb : isWhite b = true) : Good (reBytes x y w h ++ [b]) [.re x y w h] := by
  obtain ⟨v1, v2, h1, n1⟩ := args_pt x y (b := 32) rfl
  obtain ⟨v3, v4, h2, n2⟩ := args_pt w h (b := 32) rfl
  have := Reads.op (w := [114, 101]) (o := [.re v1 v2 v3 v4]) (h1.append h2) (by opw) (by opw) (by opw) (by opw) hb
  exact .of (o' := .re v1 v2 v3 v4) (by simpa [reBytes, sp] using this) ⟨n1, n2⟩

theorem good_c (p q r : ℚ × ℚ) {b : UInt8} (hb : isWhite b = true) : Good (curveBytes p q r ++ [b]) [.c p q r] := by
  obtain ⟨v1, v2, h1, n1⟩ := args_pt p.1 p.2 (b := 32) rfl
  obtain ⟨v3, v4, h2, n2⟩ := args_pt q.1 q.2 (b := 32) rfl
  obtain ⟨v5, v6, h3, n3⟩ := args_pt r.1 r.2 (b := 32) rfl
  have := Reads.op (w := [99]) (o := [.c (v1, v2) (v3, v4) (v5, v6)]) ((h1.append h2).append h3) (by opw) (by opw) (by opw)
    (by opw) hb
  exact .of (o' := .c (v1, v2) (v3, v4) (v5, v6)) (by simpa [curveBytes, sp] using this) ⟨n1, n2, n3⟩

/-- Painting operators. -/
theorem good_paint (c : UInt8) (o : Op) (h : painting [c] = some o) (hr : isRegular c = true) (hn : number [c] = none)
    {b : UInt8} (hb : isWhite b = true) (hq : c ≠ 113 ∧ c ≠ 81 ∧ c ≠ 104 ∧ c ≠ 110 ∧ c ≠ 87) (ho : NearOp o o) :
    Good [c, b] [o] := by
  have := Reads.plain (w := [c]) (b := b) (o := [o]) (by simp) (by simpa using hr) hn
    (by simp [operator, hq.1, hq.2.1, hq.2.2.1, hq.2.2.2.1, hq.2.2.2.2, h]) hb
  exact .exact (by simpa using this) (by simpa using ho)

theorem good_S : Good [83, 10] [.paint false .stroke] :=
  good_paint 83 _ rfl (by decide) (by decide +kernel) (by decide) (by decide) (by simp [NearOp])
theorem good_s : Good [115, 10] [.paint true .stroke] :=
  good_paint 115 _ rfl (by decide) (by decide +kernel) (by decide) (by decide) (by simp [NearOp])
theorem good_f : Good [102, 10] [.paint false .fill] :=
  good_paint 102 _ rfl (by decide) (by decide +kernel) (by decide) (by decide) (by simp [NearOp])
theorem good_B : Good [66, 10] [.paint false .both] :=
  good_paint 66 _ rfl (by decide) (by decide +kernel) (by decide) (by decide) (by simp [NearOp])
theorem good_b : Good [98, 10] [.paint true .both] :=
  good_paint 98 _ rfl (by decide) (by decide +kernel) (by decide) (by decide) (by simp [NearOp])

theorem good_paintByte (k : PaintKind) : Good (paintByte k ++ lit "\n") [.paint false k] := by
  cases k <;> simp only [paintByte]
  · simpa using good_S
  · simpa using good_f
  · simpa using good_B

theorem good_polygonEnd (k : PaintKind) : Good (polygonEnd k) [.paint (decide (k ≠ .fill)) k] := by
  cases k <;> simp only [polygonEnd]
  · simpa using (good_white (b := 32) rfl).append good_s
  · simpa using (good_white (b := 32) rfl).append good_f
  · simpa using (good_white (b := 32) rfl).append good_b

/-- The number of a name such as `/GS5`. -/
theorem indexed_dec (p : Bytes) (n : Nat) : indexed p (p ++ dec n) = some n := by
  simp [indexed, dec_ne_nil, decVal_dec]
  exact dec_all_digit n

theorem regular_indexed {p : Bytes} (hp : ∀ x ∈ p, isRegular x = true) (n : Nat) : ∀ x ∈ p ++ dec n, isRegular x = true := by
  intro x hx
  rcases List.mem_append.1 hx with hx | hx
  · exact hp x hx
  · exact digit_regular (dec_all_digit n x hx)

theorem good_gs (n : Nat) : Good (lit "/GS" ++ dec n ++ lit " gs\n") [.gs n] := by
  have h := Args.name (regular_indexed (p := [71, 83]) (by decide) n) (b := 32) rfl
  have := Reads.op (w := [103, 115]) (b := 10) (o := [.gs n]) h (by opw) (by opw) (by opw)
    (by
      have := indexed_dec [71, 83] n
      simp at this
      simp [operator, this]) rfl
  exact .exact (by simpa using this) (by simp [NearOp])

theorem good_ext (ext : List Nat) : Good (extBytes ext) (ext.map Op.gs) := by
  induction ext with
  | nil => exact .nil
  | cons n ext ih =>
    have := (good_gs n).append ih
    simpa [extBytes] using this

end Verif.Content
