import Verif.Lemmas.ArabicUnicode
/- C43: Arabic text. -/
namespace Verif.Props
open Arabic ArabicSpec

theorem conv_starts {x : List Nat} (h : ArabicTable.StartsPlain x) : ArabicTable.StartsPlain (convertAllah x) := by
  have hc := ArabicTable.conv x.length x (Nat.le_refl _)
  cases hc' : convertAllah x with
  | nil => intro m r e; simp at e
  | cons a t =>
    rw [hc'] at hc
    cases hc with
    | cons _ hx => intro m r e; simp only [List.cons.injEq] at e; exact e.1 ▸ h _ _ rfl
    | allah hx => intro m r e; simp only [List.cons.injEq] at e; exact e.1 ▸ (by decide)

/-- **C43** `ToArabic` (for a text that does not begin with a mark): the result is the text read from right to left, every
letter drawn by one of its own forms (lam and alef together by a form of their ligature, the word Allah by its ligature), with
exactly its own marks beside it.  Nothing is lost and nothing added.  The condition is needed: `arabic_leading_marks_fails`. -/
theorem arabic_reads (text : List Nat) (h : StartsPlain text) :
    ∃ cs, Reads anyForm 0 text cs ∧ toArabic text = rightToLeft cs := by
  obtain ⟨-, cs, h1, h2⟩ := ArabicTable.loop_reads ArabicTable.anyForm ArabicTable.shape_form _ (convertAllah text) [] (convertAllah text).length
    (Nat.le_refl _) (Nat.le_refl _) (conv_starts (starts_same.1 h))
  exact ⟨cs, reads_same (fun _ _ _ _ => form_same) (ArabicTable.reads_conv h1 (ArabicTable.conv _ text (Nat.le_refl _))), h2⟩

theorem convert_none (text : List Nat) (h : ¬ [0x0627, 0x0644, 0x0644, 0x0647] <:+: text) : convertAllah text = text := by
  have hc := ArabicTable.conv _ text (Nat.le_refl _)
  generalize convertAllah text = t at hc
  induction hc with
  | nil => rfl
  | cons r hx ih => rw [ih (fun hi => h (hi.trans (List.suffix_cons r _).isInfix))]
  | allah hx ih => exact absurd (List.IsPrefix.isInfix ⟨_, rfl⟩) h

/-- **C43** In a text without the word Allah, every letter is drawn in the form its neighbours (skipping marks) ask for after
Unicode's joining types: except, see `misdrawn`, after jeh or a lam-alef given as one rune, before hamza, and for teh marbuta
with a letter after it. -/
theorem arabic_joining (text : List Nat) (h : StartsPlain text) (ha : ¬ [0x0627, 0x0644, 0x0644, 0x0647] <:+: text) :
    ∃ cs, Reads mostlyInContext 0 text cs ∧ toArabic text = rightToLeft cs := by
  obtain ⟨-, cs, h1, h2⟩ := ArabicTable.loop_reads ArabicTable.mostlyInContext ArabicTable.shape_context _ (convertAllah text) []
    (convertAllah text).length (Nat.le_refl _) (Nat.le_refl _) (conv_starts (starts_same.1 h))
  rw [convert_none text ha] at h1
  exact ⟨cs, reads_same (fun _ _ _ _ => mostly_same) h1, h2⟩

/-- **C43** The result does not depend on the order in which the map of letters is walked: a rune is a form of at most one
letter. -/
theorem harf_unique (perm : List Harf) (hp : perm.Perm collection) (c : Nat) :
    (perm.find? (·.equals c)).getD ⟨c, c, 0, c, c⟩ = getHarf c := by
  unfold getHarf
  congr 1
  cases h1 : perm.find? (·.equals c) with
  | none =>
    symm
    rw [List.find?_eq_none] at h1 ⊢
    exact fun x hx => h1 x (hp.mem_iff.2 hx)
  | some x =>
    have hx := List.mem_of_find?_eq_some h1
    have he : x.equals c = true := List.find?_some (p := fun h : Harf => h.equals c) h1
    cases h2 : collection.find? (·.equals c) with
    | none => exact absurd he (List.find?_eq_none.1 h2 x (hp.mem_iff.1 hx))
    | some y =>
      have he' : y.equals c = true := List.find?_some (p := fun h : Harf => h.equals c) h2
      rw [ArabicTable.unique (hp.mem_iff.1 hx) (List.mem_of_find?_eq_some h2) he he']

/-- **C43** Marks at the very beginning are dropped. -/
theorem arabic_leading_marks_fails : toArabic [0x064E, 0x0628] = [0xFE8F] ∧ toArabic [0x0628, 0x064E] = [0x064E, 0xFE8F] := by
  decide +kernel

/-- **C43** After jeh, which does not join to the letter after it, the library draws a joining form: of jeh and alef, alef takes
its final form. -/
theorem arabic_jeh_fails : toArabic [0x0698, 0x0627] = [0xFE8E, 0x0698] ∧ ¬ inContext 0x0698 0x0627 0 0xFE8E := by
  refine ⟨by decide +kernel, fun h => ?_⟩
  exact absurd (h (0x0627, two 0xFE8D) (by decide +kernel) (by decide +kernel)) (by decide +kernel)

/-- **C43** Before hamza, which joins to nothing, the library draws a joining form: beh takes its initial form. -/
theorem arabic_hamza_fails : toArabic [0x0628, 0x0621] = [0x0621, 0xFE91] ∧ ¬ inContext 0 0x0628 0x0621 0xFE91 := by
  refine ⟨by decide +kernel, fun h => ?_⟩
  exact absurd (h (0x0628, four 0xFE8F) (by decide +kernel) (by decide +kernel)) (by decide +kernel)

/-- **C43** Digits and Latin letters, which are written left to right, are reversed too. -/
theorem arabic_digits_fails : toArabic [0x0628, 0x20, 0x31, 0x32] = [0x32, 0x31, 0x20, 0xFE8F] := by
  decide +kernel

/-! The word "salam" with marks, followed by another word; the hypotheses are met and the result is not the input. -/
example : StartsPlain [0x0633, 0x064E, 0x0644, 0x064E, 0x0627, 0x0645, 0x20, 0x0628] ∧
    ¬ [0x0627, 0x0644, 0x0644, 0x0647] <:+: [0x0633, 0x064E, 0x0644, 0x064E, 0x0627, 0x0645, 0x20, 0x0628] ∧
    toArabic [0x0633, 0x064E, 0x0644, 0x064E, 0x0627, 0x0645, 0x20, 0x0628] =
      [0xFE8F, 0x20, 0xFEE1, 0x064E, 0xFEFC, 0x064E, 0xFEB3] := by
  refine ⟨?_, ?_, by decide +kernel⟩
  · intro m rest h
    simp only [List.cons.injEq] at h
    rw [← h.1]; decide
  · rintro ⟨s, t, h⟩
    have := congrArg (List.count 0x0644) h
    simp at this
    omega

example : ¬ misdrawn 0x0628 0x0633 0x0645 ∧ (getCharShape 0x0628 0x0633 0x0645 = 0xFEB4) := by
  unfold misdrawn
  decide +kernel

end Verif.Props
