import Verif.Lemmas.Arabic
import Verif.Spec.Arabic
/- The library's tables of Arabic letters and marks are those of Unicode. -/
namespace Verif.ArabicSpec
open Arabic

/-- The runes of a letter of the library's table. -/
def harfRunes (h : Harf) : List Nat := [h.unicode, h.beginning, h.isolated, h.middle, h.final]

theorem equals_runes (h : Harf) (c : Nat) : h.equals c = true ↔ c ∈ harfRunes h := by
  constructor
  · exact ArabicTable.equals_mem
  · intro e
    simp only [harfRunes, List.mem_cons, List.not_mem_nil, or_false] at e
    unfold Harf.equals
    simp only [Bool.or_eq_true, beq_iff_eq]
    grind

/-- Each letter of one table is one of the other, with the same runes and the same joining. -/
def SameLetter (h : Harf) (l : Nat × List Nat) : Prop := (∀ c ∈ harfRunes h, c ∈ runes l) ∧ (∀ c ∈ runes l, c ∈ harfRunes h) ∧
  (l.2.length == 4) = !ArabicTable.endsJoin.contains h ∧ (l.2.length != 1) = (h != hamza) ∧
  ∀ x y : Bool, ∀ c ∈ ArabicTable.forms h x y, c ∈ forms l x y

instance (h : Harf) (l : Nat × List Nat) : Decidable (SameLetter h l) := by unfold SameLetter; infer_instance

theorem table_to : ∀ h ∈ collection, ∃ l ∈ letters, SameLetter h l := by decide +kernel
theorem table_back : ∀ l ∈ letters, ∃ h ∈ collection, SameLetter h l := by decide +kernel

theorem mem_same {h : Harf} {l : Nat × List Nat} (s : SameLetter h l) (c : Nat) : h.equals c = true ↔ c ∈ runes l := by
  rw [equals_runes]; exact ⟨s.1 c, s.2.1 c⟩

theorem form_same {r b : Nat} (h : ArabicTable.Form r b) : Form r b := by
  rcases h with ⟨x, hx, h1, h2⟩ | ⟨h1, h2⟩
  · obtain ⟨l, hl, s⟩ := table_to x hx
    exact .inl ⟨l, hl, (mem_same s r).1 h1, (mem_same s b).1 h2⟩
  · refine .inr ⟨fun l hl hm => ?_, h2⟩
    obtain ⟨x, hx, s⟩ := table_back l hl
    exact absurd h1 (by simp only [inAlphabet, Bool.not_eq_false, List.any_eq_true]; exact ⟨x, hx, (mem_same s r).2 hm⟩)

theorem mark_same (r : Nat) : isMark r = isTashkeel r := by
  rw [Bool.eq_iff_iff]
  simp only [isMark, isTashkeel, marks, List.contains_eq_mem, List.mem_cons, List.not_mem_nil, or_false, decide_eq_true_eq]
  omega

theorem expand_same (m : Nat) : expandMark m = ArabicTable.expandMark m := by
  unfold expandMark
  split
  iterate 6 decide +kernel
  rename_i x h1 h2 h3 h4 h5 h6
  unfold ArabicTable.expandMark
  have : shaddaLigatures.find? (·.2 = m) = none := by
    rw [List.find?_eq_none]
    simp only [shaddaLigatures, List.mem_cons, List.not_mem_nil, or_false, decide_eq_true_eq, forall_eq_or_imp, forall_eq]
    grind
  rw [this]

theorem any_same {p : Harf → Bool} {q : Nat × List Nat → Bool} (h : ∀ x l, SameLetter x l → p x = q l) : letters.any q = collection.any p := by
  rw [Bool.eq_iff_iff, List.any_eq_true, List.any_eq_true]
  constructor
  · rintro ⟨l, hl, hq⟩
    obtain ⟨x, hx, s⟩ := table_back l hl
    exact ⟨x, hx, (h x l s).trans hq⟩
  · rintro ⟨x, hx, hp⟩
    obtain ⟨l, hl, s⟩ := table_to x hx
    exact ⟨l, hl, (h x l s).symm.trans hp⟩

theorem contains_same {h : Harf} {l : Nat × List Nat} (s : SameLetter h l) (c : Nat) : h.equals c = (runes l).contains c := by
  rw [Bool.eq_iff_iff, mem_same s]; simp

theorem joinsNext_same (c : Nat) : joinsNext c = ArabicTable.joinsNext c :=
  any_same fun x l s => by rw [contains_same s, s.2.2.1]

theorem joinsPrev_same (c : Nat) : joinsPrev c = ArabicTable.joinsPrev c :=
  any_same fun x l s => by rw [contains_same s, s.2.2.2.1]

theorem context_same {prev r next b : Nat} (h : ArabicTable.inContext prev r next b) : inContext prev r next b := by
  intro l hl hr
  obtain ⟨x, hx, s⟩ := table_back l hl
  rw [joinsNext_same, joinsPrev_same]
  exact s.2.2.2.2 _ _ b (h x hx ((mem_same s r).2 hr))

theorem misdrawn_same {prev r next : Nat} (h : ArabicTable.misdrawn prev r next) : misdrawn prev r next := by
  unfold ArabicTable.misdrawn at h
  simp only [equals_runes, ← joinsPrev_same] at h
  simp only [harfRunes, jeh, lam_alef, lam_alef_hamza_above, hamza, teh_marbuta, List.mem_cons, List.not_mem_nil, or_false] at h
  unfold misdrawn
  simp only [List.mem_cons, List.not_mem_nil, or_false]
  grind

theorem mostly_same {prev r next b : Nat} (h : ArabicTable.mostlyInContext prev r next b) : mostlyInContext prev r next b :=
  ⟨form_same h.1, fun hm => context_same (h.2 fun hn => hm (misdrawn_same hn))⟩

theorem starts_same {t : List Nat} : StartsPlain t ↔ ArabicTable.StartsPlain t := by
  unfold StartsPlain ArabicTable.StartsPlain
  simp only [mark_same]

theorem marks_same {ms drawn : List Nat} (h : ArabicTable.MarksDrawn ms drawn) : MarksDrawn ms drawn := by
  refine ⟨fun m hm => (mark_same m).trans (h.1 m hm), ?_⟩
  have : expandMark = ArabicTable.expandMark := funext expand_same
  rw [this]; exact h.2

theorem reads_same {P : ArabicTable.Drawing} {Q : Drawing} (hPQ : ∀ prev r next b, P prev r next b → Q prev r next b) {prev : Nat} {t : List Nat}
    {cs : List (Nat × List Nat)} (h : ArabicTable.Reads P prev t cs) : Reads Q prev t cs := by
  induction h with
  | nil prev => exact .nil prev
  | letter prev r b ms drawn rest cs hr hf hm hs _ ih =>
    exact .letter prev r b ms drawn rest cs ((mark_same r).trans hr) (hPQ _ _ _ _ hf) (marks_same hm) (starts_same.2 hs) ih
  | lamAlef prev a l b ms1 ms2 drawn rest cs hl hf h1 hm hs _ ih =>
    refine .lamAlef prev a l.unicode b ms1 ms2 drawn rest cs ?_ (hPQ _ _ _ _ hf) (fun m hm => (mark_same m).trans (h1 m hm)) (marks_same hm)
      (starts_same.2 hs) ih
    rcases hl with ⟨h1, h2⟩ | ⟨h1, h2⟩
    · exact .inl ⟨h1, by rw [h2]; rfl⟩
    · exact .inr ⟨h1, by rw [h2]; rfl⟩
  | allah prev ms drawn rest cs hm hs _ ih => exact .allah prev ms drawn rest cs (marks_same hm) (starts_same.2 hs) ih

end Verif.ArabicSpec
