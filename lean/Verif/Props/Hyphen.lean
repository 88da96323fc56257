import Verif.Props.ColumnExample
/- C79: lines with a separator. -/
set_option maxRecDepth 10000
namespace Verif.Props
open Typeset (Setting setting Face Measures SpaceFor)
open Column (inCell inUnit)

/-- Without kerning and character spacing no text has a negative width. -/
private theorem measures_nonneg {f : Face} {left : Option (Nat × Nat)} {t : List Nat} {m : Int} (h : Measures f 0 left t m) (hk : f.useKerning = false) :
    0 ≤ m := by
  induction h with
  | nil => exact le_refl _
  | @cons left r r' g w k n rest a1 a2 a3 a4 a5 ih =>
    have : k = 0 := by
      cases left with
      | none => simpa [Typeset.PairKern] using a4
      | some p => simpa [Typeset.PairKern, hk] using a4
    subst this
    omega

/-- The width of a text is that of two parts. -/
private theorem measures_split {f : Face} (hk : f.useKerning = false) {space : Int} {v : List Nat} :
    ∀ {u : List Nat} {left : Option (Nat × Nat)} {m : Int}, Measures f space left (u ++ v) m →
      ∃ a b, Measures f space left u a ∧ Measures f space none v b ∧ m = a + b
  | [], left, m, h => by
    refine ⟨0, m, .nil, ?_, by ring⟩
    simp only [List.nil_append] at h
    cases h with
    | nil => exact .nil
    | @cons _ r r' g w k n rest a1 a2 a3 a4 a5 =>
      refine .cons a1 a2 a3 ?_ a5
      cases left with
      | none => exact a4
      | some p => simpa [Typeset.PairKern, hk] using a4
  | c :: u, left, m, h => by
    cases h with
    | @cons _ _ r' g w k n _ a1 a2 a3 a4 a5 =>
      obtain ⟨a, b, h1, h2, rfl⟩ := measures_split hk a5
      exact ⟨_, b, .cons a1 a2 a3 a4 h1, h2, by ring⟩

section
variable {base : Content.Env} {prot : Bool} {ml mt : ℚ} {n : Nat} {prog : List Layout.Call} {s : Layout.St}

/-- **C79** A line that is broken with a separator is not wider than the rectangle, the separator included: if the caller did not ask
for kerning and set no character spacing, the width of every line of MultiCellWithOption, but
for one that is the separator alone, is at most the width of the rectangle. -/
theorem hyphenated_lines_fit (h : Typed base prot ml mt n prog s) {r : Units.Rect} {t : List Nat} {opt : Content.CellOption}
    {b : Content.BreakOption} {tr : Option Doc.Tr} (ht : ∀ c ∈ t, IsScalar c) (hb : ∀ c ∈ b.separator, IsScalar c) (hne : t ≠ [])
    (hkern : ∀ face, (setting s.log.calls).face = some face → face.useKerning = false) (hsize : 0 ≤ (setting s.log.calls).size) (hconv : 0 ≤ base.cfg.conv)
    (hspace : (setting s.log.calls).spacing = 0) {l' : Layout.Log}
    (hcall : Layout.multiCellOpt base n s.log r t opt b tr = some l') :
    ∃ (face : Face) (cs : List Typeset.Call), (setting s.log.calls).face = some face ∧ l'.calls = s.log.calls ++ cs ∧
      ∀ w line, (w, line) ∈ cs.filterMap inCell → w = r.w ∧ (line ≠ [] → line ≠ b.separator →
        ∃ m, Measures face 0 none line m ∧ inUnit base.cfg (setting s.log.calls).size m ≤ r.w) := by
  obtain ⟨face, space, width, sep, lines, h1, h2, h3, h4, ⟨cs, h5, h6⟩, -, h7⟩ := wrapped_log h.reached.1 h.reached.2 ht hb hne hcall
  have hz : space = 0 := h2.1 (by rw [hspace]; simp [Units.toPoints])
  subst hz
  refine ⟨face, cs, h1, h5, fun w line hl => ?_⟩
  rw [h6] at hl
  obtain ⟨l, hl1, hl2⟩ := List.mem_map.1 hl
  obtain ⟨rfl, rfl⟩ := Prod.mk.inj hl2
  refine ⟨rfl, fun hne' hns => ?_⟩
  rcases h7 l hl1 with ⟨hmem, hp⟩ | ⟨a, rfl, hmem, ha⟩
  · obtain ⟨pre, c, rfl⟩ : ∃ pre c, l = pre ++ [c] := ⟨l.dropLast, l.getLast hne', (List.dropLast_append_getLast hne').symm⟩
    have hp := hp pre c [] rfl
    refine ⟨width pre + width [c], measures_snoc (hkern face h1) (h3 [c] (by simpa using hmem c (by simp))) (h3 pre fun c hc => hmem c (by simp [hc])), ?_⟩
    simpa using hp
  · rcases ha with rfl | ⟨u, q, hu, hq, hf⟩
    · exact absurd rfl hns
    · obtain ⟨i, j, hi, hj, hua⟩ := measures_split (hkern face h1) (h3 (u ++ a) fun c hc => (List.mem_append.1 hc).elim (hu c) (hmem c))
      refine ⟨j + sep, measures_snoc (hkern face h1) h4 hj, ?_⟩
      have hq0 := measures_nonneg (h3 [q] (by simpa using hq)) (hkern face h1)
      have hu0 := measures_nonneg hi (hkern face h1)
      simp only [decide_eq_true_eq] at hf
      refine le_trans ?_ hf
      have hle : j + sep ≤ width (u ++ a) + width [q] + sep := by omega
      generalize j + sep = i at hle ⊢
      generalize width (u ++ a) + width [q] + sep = j at hle ⊢
      have hij : (i : ℚ) * ((setting s.log.calls).size / 1000) ≤ (j : ℚ) * ((setting s.log.calls).size / 1000) :=
        mul_le_mul_of_nonneg_right (by exact_mod_cast hle) (by positivity)
      unfold inUnit
      unfold Units.fromPoints Units.factor
      split
      · exact div_le_div_of_nonneg_right hij hconv
      · refine div_le_div_of_nonneg_right hij ?_
        repeat (split; · norm_num)
        norm_num

end

/-- "ABABA" with the hyphen "B" in a column 18 wide: A is 5.37, B 5.85 wide. -/
theorem hyphen_lines : (Layout.multiCellOpt demoEnv 100 (columnState plainFace).log { w := 18, h := 40 } [65, 66, 65, 66, 65] {} { separator := [66] } none).map
    (fun l => l.calls.filterMap inCell) = some [(18, [65, 66]), (18, [66, 66]), (18, [65, 66, 65])] := by decide +kernel

-- the hypotheses of the theorem are met
example : ∃ l' face cs, Layout.multiCellOpt demoEnv 100 (columnState plainFace).log { w := 18, h := 40 } [65, 66, 65, 66, 65] {} { separator := [66] } none = some l' ∧
    l'.calls = (columnState plainFace).log.calls ++ cs ∧ ∀ w line, (w, line) ∈ cs.filterMap inCell → w = 18 ∧ (line ≠ [] → line ≠ [66] →
      ∃ m, Measures face 0 none line m ∧ inUnit demoEnv.cfg (setting (columnState plainFace).log.calls).size m ≤ 18) := by
  obtain ⟨l', hl, -⟩ := Option.map_eq_some_iff.1 hyphen_lines
  obtain ⟨face, cs, -, h3, h4⟩ := hyphenated_lines_fit (column_typed plainFace (.inl rfl)) (by simp [IsScalar]) (by simp [IsScalar]) (by decide) column_plain
    (by decide +kernel) (by decide +kernel) (by decide +kernel) hl
  exact ⟨l', face, cs, hl, h3, h4⟩

end Verif.Props
