import Verif.Model.CompressLevel
/- C47: the compression level. -/
namespace Verif.Props
open CompressLevel

/-- **C47** After any calls, SetCompressLevel(l) with l between -2 and 9 makes the level l, a smaller l makes it the default
level -1, and SetNoCompression makes it 0. -/
theorem level_set (calls : List Call) (l : Int) :
    (-2 ≤ l → l ≤ 9 → after (calls ++ [.setCompressLevel l]) = l) ∧
    (l < -2 → after (calls ++ [.setCompressLevel l]) = -1) ∧ after (calls ++ [.setNoCompression]) = 0 := by
  simp only [after, List.foldl_append, List.foldl_cons, List.foldl_nil, step]
  refine ⟨fun h1 h2 => ?_, fun h => if_pos h, trivial⟩
  rw [if_neg (by omega), if_neg (by omega)]

/-- **C47** Whatever is set, the level is one the compressor accepts: content streams can always be written. -/
theorem level_always_writable (calls : List Call) : -2 ≤ after calls ∧ after calls ≤ 9 ∧ writable (after calls) = true := by
  have key : ∀ (calls : List Call) (l : Int), -2 ≤ l ∧ l ≤ 9 → -2 ≤ calls.foldl step l ∧ calls.foldl step l ≤ 9 := by
    intro calls
    induction calls with
    | nil => intro l h; exact h
    | cons c calls ih =>
      intro l h
      refine ih _ ?_
      cases c with
      | setCompressLevel k => simp only [step]; split <;> (try split) <;> omega
      | setNoCompression => simp [step]
  have h : -2 ≤ after calls ∧ after calls ≤ 9 := key calls initial (by decide)
  exact ⟨h.1, h.2, by simp [writable, h.1, h.2]⟩

/-- **C47** The levels there are: these, and no others. -/
theorem levels (l : Int) : writable l = true ↔ (-2 ≤ l ∧ l ≤ 9) := by simp [writable]

/-- **C47** Content streams are compressed, at the default level, until another level is set. -/
theorem default_level (calls : List Call) (h : ∀ c ∈ calls, ∃ l, c = .setCompressLevel l ∧ (l < -2 ∨ l = -1 ∨ 9 < l)) :
    after calls = -1 ∧ isFlate (after calls) = true := by
  have key : ∀ (calls : List Call), (∀ c ∈ calls, ∃ l, c = .setCompressLevel l ∧ (l < -2 ∨ l = -1 ∨ 9 < l)) → calls.foldl step (-1) = -1 := by
    intro calls
    induction calls with
    | nil => intro _; rfl
    | cons c calls ih =>
      intro h
      obtain ⟨l, rfl, hl⟩ := h c (by simp)
      have : step (-1) (.setCompressLevel l) = -1 := by
        simp only [step]
        split
        · rfl
        · split
          · rfl
          · omega
      rw [List.foldl_cons, this]
      exact ih fun c hc => h c (by simp [hc])
  have : after calls = -1 := key calls h
  exact ⟨this, by rw [this]; rfl⟩

example : after [] = -1 ∧ after [.setCompressLevel 11, .setCompressLevel (-9)] = -1 := by decide

/-- **C47** A stream is compressed unless level 0 was the last level accepted. -/
theorem compressed_iff (calls : List Call) : isFlate (after calls) = true ↔ after calls ≠ 0 := by simp [isFlate]

/-- **C47** (counterexample)  A level above 9 announces "using BestCompression instead" but leaves the level as it was. -/
theorem level_too_big_fails (calls : List Call) (l : Int) (h : 9 < l) : after (calls ++ [.setCompressLevel l]) = after calls := by
  simp only [after, List.foldl_append, List.foldl_cons, List.foldl_nil, step]
  rw [if_neg (by omega), if_pos h]

/-- … so that after SetNoCompression, SetCompressLevel(10) leaves streams uncompressed. -/
example : after [.setNoCompression, .setCompressLevel 10] = 0 ∧ after [.setCompressLevel 5, .setCompressLevel (-7)] = -1 ∧
    after [.setCompressLevel 5, .setCompressLevel 9] = 9 := by decide

end Verif.Props
