import Verif.Lemmas.SplitTerm
/- C11, C12, C13: splitting text into lines.  Widths are arbitrary comparison functions (Verif.Model.Split). -/
namespace Verif.Props
open Split Wrap

/-- Unit-width measure with maximal width `w` and separator width `k`, used for the witnesses below. -/
def unitCfg (mode : Mode) (ind : Nat) (sep : Text) (w : Nat) : Cfg :=
  { mode := mode, indicator := ind, separator := sep
    exceeds := fun l _ => decide (w < l.length + 1)
    sepFits := fun l _ => decide (l.length + 1 + sep.length ≤ w) }

/-- **C11/C13** Whatever SplitTextWithOption returns - any text, any break option, any measure - is a legal wrapping in
the sense of Verif/Spec/Wrap.lean: a line ends only at the end of the text, at a newline, at a break indicator or
because the next character does not fit; with an indicator a word is cut only when the line holds no indicator
after its first character. -/
theorem split_is_wrapping (c : Cfg) (text : Text) (lines : List Text) (h : Returns c text lines) :
    Wraps c.opts lines text := by
  obtain ⟨hne, n, hn⟩ := h
  have hpos : 0 < text.length := List.length_pos_iff.2 hne
  obtain ⟨ls, h1, h2⟩ := run_wraps c text n {} 0 lines
    (Inv.fresh rfl rfl (Nat.zero_le _) (fun _ _ => Nat.le_refl _)) hpos hn
  simp at h1; subst h1; simpa using h2

/-- **C11** SplitText (strict mode, no separator) loses nothing: the lines concatenate to the text without newlines. -/
theorem split_lossless (c : Cfg) (hm : c.mode = .strict) (hs : c.separator = []) (text : Text) (lines : List Text)
    (h : Returns c text lines) : lines.flatten = text.filter (fun r => decide (r ≠ 10)) := by
  have hw := split_is_wrapping c text lines h
  have e := Wraps.erase (o := c.opts) (p := fun r => decide (r ≠ 10)) (by decide)
    (by intro i hi; simp [Cfg.opts, hm] at hi) (by intro x hx; simp [Cfg.opts, hs] at hx) hw
  rw [← e]
  symm
  apply filter_no10
  intro ha
  obtain ⟨l, hl, hal⟩ := List.mem_flatten.1 ha
  exact Wraps.no_newline (by simp [Cfg.opts, hs]) hw l hl hal

/-- **C11** newlines are honoured: the returned lines fall into consecutive non-empty groups, one per paragraph of the
text, and each group concatenates to exactly its paragraph. -/
theorem split_newlines_honoured (c : Cfg) (hm : c.mode = .strict) (hs : c.separator = []) (text : Text)
    (lines : List Text) (h : Returns c text lines) :
    ∃ groups : List (List Text), groups.flatten = lines ∧ groups.map List.flatten = paragraphs text ∧
      ∀ g ∈ groups, g ≠ [] :=
  Wraps.grouped (by simp [Cfg.opts, hs]) (by simp [Cfg.opts, hm]) (split_is_wrapping c text lines h)

/-- **C11** no line is too wide: every character of every line fitted after the characters before it (any mode without
separator). -/
theorem split_lines_fit (c : Cfg) (hs : c.separator = []) (text : Text) (lines : List Text)
    (h : Returns c text lines) : ∀ l ∈ lines, ∀ pre r post, l = pre ++ r :: post → c.exceeds pre r = false :=
  Wraps.placed (by simp [Cfg.opts, hs]) (split_is_wrapping c text lines h)

/-- **C13** nothing but indicators, newlines and separators is removed or inserted: deleting these characters from the
concatenated lines and from the text gives the same. -/
theorem split_keeps_words (c : Cfg) (text : Text) (lines : List Text) (h : Returns c text lines) (p : Nat → Bool)
    (h10 : p 10 = false) (hind : c.mode = .indicator → p c.indicator = false)
    (hsep : ∀ x ∈ c.separator, p x = false) : lines.flatten.filter p = text.filter p := by
  refine Wraps.erase h10 ?_ hsep (split_is_wrapping c text lines h)
  intro i hi
  cases hm : c.mode with
  | strict => simp [Cfg.opts, hm] at hi
  | indicator => simp [Cfg.opts, hm] at hi; subst hi; exact hind hm

/-- **C13** without a separator nothing is inserted: the lines are the text with characters left out, in order. -/
theorem split_only_removes (c : Cfg) (hs : c.separator = []) (text : Text) (lines : List Text)
    (h : Returns c text lines) : lines.flatten.Sublist text :=
  Wraps.sublist (by simp [Cfg.opts, hs]) (split_is_wrapping c text lines h)

/-- **C13** without a separator the call never panics. -/
theorem split_no_panic (c : Cfg) (hs : c.separator = []) (text : Text) : ¬ Panics c text := by
  rintro ⟨_, n, hn⟩
  exact run_not_bad (by simp [Cfg.hasSep, hs]) text n _ (by simp) hn

/-- **C13** the full claim is false: with a separator the call panics, e.g. for "a\nbcde", three characters per line
and a three-character separator (the remembered separator position lies on the previous line). -/
theorem split_no_panic_fails : ∃ (c : Cfg) (text : Text), Panics c text :=
  ⟨unitCfg .strict 0 [45, 45, 45] 3, [97, 10, 98, 99, 100, 101], by decide, 6, by decide⟩

/-- **C12** exact condition without separator, for measures that never shrink when a line grows: the call returns iff
every character of the text fits on a line of its own. -/
theorem split_terminates_iff (c : Cfg) (hs : c.separator = []) (text : Text) (hne : text ≠ [])
    (mono : ∀ l r, c.exceeds [] r = true → c.exceeds l r = true) :
    (∃ lines, Returns c text lines) ↔ ∀ r ∈ text, r ≠ 10 → c.exceeds [] r = false := by
  have hs' : c.hasSep = false := by simp [Cfg.hasSep, hs]
  constructor
  · rintro ⟨lines, h⟩ r hr hn
    obtain ⟨pre, hp⟩ := Wraps.fits (split_is_wrapping c text lines h) r hr hn
    cases hx : c.exceeds [] r with
    | false => rfl
    | true =>
      have hp' : c.exceeds pre r = false := hp
      rw [mono pre r hx] at hp'; simp at hp'
  · intro hfit
    have room : Roomy c text := ⟨hfit, by simp [hs'], by simp [hs'], by simp [hs']⟩
    obtain ⟨n, ls, h⟩ := run_terminates room _ 0 {} (Pos.new rfl rfl (Nat.zero_le _)) (by simp) (Nat.le_refl _)
    exact ⟨ls, hne, n, h⟩

/-- **C12** and in the other case it loops forever: a single character wider than the line hangs the call. -/
theorem split_terminates_fails (c : Cfg) (hs : c.separator = []) (text : Text) (r : Nat) (hr : r ∈ text)
    (hn : r ≠ 10) (hwide : ∀ l, c.exceeds l r = true) : Diverges c text := by
  refine ⟨fun h => by simp [h] at hr, fun n => ?_⟩
  cases hx : run c text n (.running {}) with
  | running s => exact ⟨s, rfl⟩
  | finished ls =>
    exfalso
    have hret : Returns c text ls := ⟨fun h => by simp [h] at hr, n, hx⟩
    obtain ⟨pre, hp⟩ := Wraps.fits (split_is_wrapping c text ls hret) r hr hn
    have hp' : c.exceeds pre r = false := hp
    rw [hwide pre] at hp'; simp at hp'
  | bad => exact absurd hx (run_not_bad (by simp [Cfg.hasSep, hs]) text n _ (by simp))

/-- **C12/C13** with a separator (any mode): when any character, and any two characters followed by the separator, fit on
a line, the call returns (so it neither hangs nor panics). -/
theorem split_separator_terminates (c : Cfg) (text : Text) (hne : text ≠ [])
    (fits : ∀ r ∈ text, r ≠ 10 → c.exceeds [] r = false)
    (fits1 : ∀ r ∈ text, r ≠ 10 → c.sepFits [] r = true)
    (fits2 : ∀ r₁ ∈ text, ∀ r₂ ∈ text, r₁ ≠ 10 → r₂ ≠ 10 → c.sepFits [r₁] r₂ = true)
    (stronger : ∀ l r, c.sepFits l r = true → c.exceeds l r = false) : ∃ lines, Returns c text lines := by
  have room : Roomy c text := ⟨fits, fun _ => fits1, fun _ => fits2, fun _ => stronger⟩
  obtain ⟨n, ls, h⟩ := run_terminates room _ 0 {} (Pos.new rfl rfl (Nat.zero_le _)) (by simp) (Nat.le_refl _)
  exact ⟨ls, hne, n, h⟩

/-- **C12** the room for two characters is needed: with room for one character and a one-character separator
("abc", two characters per line, separator "-") the call never returns although every character fits: the remembered
separator position is one too small, so every line keeps no character at all. -/
theorem split_separator_terminates_fails :
    ∃ (c : Cfg) (text : Text), (∀ r ∈ text, c.exceeds [] r = false ∧ c.sepFits [] r = true) ∧ Diverges c text := by
  refine ⟨unitCfg .strict 0 [45] 2, [97, 98, 99], by decide, by decide, ?_⟩
  have cyc : ∀ out : List Text, run (unitCfg .strict 0 [45] 2) [97, 98, 99] 3 (.running ⟨0, [], out, 0⟩) =
      .running ⟨0, [], out ++ [[45]], 0⟩ := fun _ => rfl
  have key : ∀ (n : Nat) (out : List Text),
      ∃ s, run (unitCfg .strict 0 [45] 2) [97, 98, 99] n (.running ⟨0, [], out, 0⟩) = .running s := by
    intro n
    induction n using Nat.strongRecOn with
    | ind n ih =>
      intro out
      match n, ih with
      | 0, _ => exact ⟨_, rfl⟩
      | 1, _ => exact ⟨_, rfl⟩
      | 2, _ => exact ⟨_, rfl⟩
      | n + 3, ih =>
        rw [show n + 3 = 3 + n from by omega, run_add, cyc]
        exact ih n (by omega) _
  exact fun n => key n []

/-! Concrete non-trivial cases. -/

-- "ab\n\ncdefg" with three characters per line
example : Returns (unitCfg .strict 0 [] 3) [97, 98, 10, 10, 99, 100, 101, 102, 103]
    [[97, 98], [], [99, 100, 101], [102, 103]] := ⟨by decide, 20, by decide⟩
-- "ab cd efghij" word wrap with five characters per line
example : Returns (unitCfg .indicator 32 [] 5) [97, 98, 32, 99, 100, 32, 101, 102, 103, 104, 105, 106]
    [[97, 98], [99, 100], [101, 102, 103, 104, 105], [106]] := ⟨by decide, 40, by decide⟩
-- hyphenation: "abcdefg" with four characters per line and "-"
example : Returns (unitCfg .strict 0 [45] 4) [97, 98, 99, 100, 101, 102, 103]
    [[97, 98, 45], [99, 100, 45], [101, 102, 103]] := ⟨by decide, 40, by decide⟩
example : ∀ l r, (unitCfg .strict 0 [45] 4).sepFits l r = true → (unitCfg .strict 0 [45] 4).exceeds l r = false := by
  intro l r; simp only [unitCfg, List.length_singleton, decide_eq_true_eq, decide_eq_false_iff_not]; omega
example : ∀ l r, (unitCfg .strict 0 [] 3).exceeds [] r = true → (unitCfg .strict 0 [] 3).exceeds l r = true := by
  intro l r; simp [unitCfg]

end Verif.Props
