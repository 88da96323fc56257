import Verif.Spec.Options
import Verif.Props.DocShared
import Verif.Model.Content
/- C81: what options given as strings mean. -/
namespace Verif.Props
open Options Paint

/-- **C81** A font style is bold, italic, underlined if it has the letter b, i, u - small or capital, anywhere, with anything else in between;
an i without a dot counts too. -/
theorem font_style_letters {upper : Char → Char} {space : Char → Bool} (ha : Alphabet upper space) (s : List Char) :
    convertedStyle upper s = (if 'b' ∈ s ∨ 'B' ∈ s then 2 else 0) + (if 'i' ∈ s ∨ 'I' ∈ s ∨ 'ı' ∈ s then 1 else 0) + (if 'u' ∈ s ∨ 'U' ∈ s then 4 else 0) := by
  have hB : (s.map upper).contains 'B' = true ↔ 'b' ∈ s ∨ 'B' ∈ s := by
    rw [List.contains_iff_mem, List.mem_map]
    constructor
    · rintro ⟨c, hc, h⟩; rcases (ha.B c).1 h with rfl | rfl <;> simp [hc]
    · rintro (h | h) <;> exact ⟨_, h, (ha.B _).2 (by simp)⟩
  have hI : (s.map upper).contains 'I' = true ↔ 'i' ∈ s ∨ 'I' ∈ s ∨ 'ı' ∈ s := by
    rw [List.contains_iff_mem, List.mem_map]
    constructor
    · rintro ⟨c, hc, h⟩; rcases (ha.I c).1 h with rfl | rfl | rfl <;> simp [hc]
    · rintro (h | h | h) <;> exact ⟨_, h, (ha.I _).2 (by simp)⟩
  have hU : (s.map upper).contains 'U' = true ↔ 'u' ∈ s ∨ 'U' ∈ s := by
    rw [List.contains_iff_mem, List.mem_map]
    constructor
    · rintro ⟨c, hc, h⟩; rcases (ha.U c).1 h with rfl | rfl <;> simp [hc]
    · rintro (h | h) <;> exact ⟨_, h, (ha.U _).2 (by simp)⟩
  unfold convertedStyle
  simp only [hB, hI, hU]
  split_ifs <;> rfl

/-- **C81** SetFont with a style given as a string: the font registered first under the family as bold and italic as the string says, without
regard to the letter u; if there is none, an error and nothing changes. -/
theorem set_font_by_letters {upper : Char → Char} {space : Char → Bool} (ha : Alphabet upper space) (d : Doc.Doc) (family : Nat) (s : List Char) :
    match (fontsOf d).find? (fun x => x.2.1 = family ∧ x.2.2 = (if 'b' ∈ s ∨ 'B' ∈ s then 2 else 0) + (if 'i' ∈ s ∨ 'I' ∈ s ∨ 'ı' ∈ s then 1 else 0)) with
    | some x => (Doc.step d (.setFont family (convertedStyle upper s))).2 = .ok ∧
        ∃ c, (Doc.step d (.setFont family (convertedStyle upper s))).1 = { d with curFont := some (x.1 - 1, c) }
    | none => Doc.step d (.setFont family (convertedStyle upper s)) = (d, .err) := by
  have h := set_font_lookup d family (convertedStyle upper s)
  have hs : Doc.noUnderline (convertedStyle upper s) = (if 'b' ∈ s ∨ 'B' ∈ s then 2 else 0) + (if 'i' ∈ s ∨ 'I' ∈ s ∨ 'ı' ∈ s then 1 else 0) := by
    rw [font_style_letters ha]
    split_ifs <;> rfl
  rw [hs] at h
  split at h
  · next x hx => rw [hx]; exact ⟨h.1, h.2.imp fun c hc => hc.1⟩
  · next hx => rw [hx]; exact h

/-- **C81** Rectangles and polygons: exactly "F" fills, exactly "FD" and "DF" draw and fill, everything else draws.  For curves the case and
spaces around do not matter. -/
theorem paint_letters {upper : Char → Char} {space : Char → Bool} (ha : Alphabet upper space) (s : List Char) :
    (parseStyle s = .fill ↔ s = ['F']) ∧ (parseStyle s = .both ↔ s = ['F', 'D'] ∨ s = ['D', 'F']) ∧ polygonStyle s = parseStyle s ∧
    ∀ before after, (∀ c ∈ before, space c = true) → (∀ c ∈ after, space c = true) → ∀ core, (∀ c, core.head? = some c ∨ core.getLast? = some c → space c = false) →
      (curveStyle upper space (before ++ core ++ after) = .fill ↔ core = ['F'] ∨ core = ['f']) ∧
      (curveStyle upper space (before ++ core ++ after) = .both ↔ ∃ x ∈ ['f', 'F'], ∃ y ∈ ['d', 'D'], core = [x, y] ∨ core = [y, x]) := by
  have hp : ∀ t : List Char, (parseStyle t = .fill ↔ t = ['F']) ∧ (parseStyle t = .both ↔ t = ['F', 'D'] ∨ t = ['D', 'F']) := by
    intro t
    unfold parseStyle
    by_cases h1 : t = ['F']
    · subst h1; simp
    · by_cases h2 : t = ['F', 'D'] ∨ t = ['D', 'F']
      · simp only [if_neg h1, if_pos h2]; simp [h1, h2]
      · simp only [if_neg h1, if_neg h2]; simp [h1, h2]
  refine ⟨(hp s).1, (hp s).2, rfl, ?_⟩
  intro before after hb haft core hc
  have drop_all : ∀ (l r : List Char), (∀ c ∈ l, space c = true) → (∀ c, r.head? = some c → space c = false) → (l ++ r).dropWhile space = r := by
    intro l r hl hr
    induction l with
    | nil =>
      cases r with
      | nil => rfl
      | cons c r => simp [List.dropWhile_cons, hr c rfl]
    | cons c l ih =>
      rw [List.cons_append, List.dropWhile_cons, if_pos (hl c (by simp))]
      exact ih fun c' h => hl c' (by simp [h])
  have ht : trimSpace space (before ++ core ++ after) = core := by
    unfold trimSpace
    cases hcore : core with
    | nil =>
      have : (before ++ [] ++ after).dropWhile space = [] := by
        rw [List.append_nil]
        rw [← List.append_nil (before ++ after)]
        exact drop_all _ _ (by intro c h; rcases List.mem_append.1 h with h | h; exacts [hb c h, haft c h]) (by simp)
      rw [this]; rfl
    | cons x xs =>
      rw [← hcore, List.append_assoc, drop_all before (core ++ after) hb (by
        intro c h
        refine hc c (.inl ?_)
        rw [hcore] at h ⊢
        exact h), List.reverse_append, drop_all after.reverse core.reverse (by
          intro c h
          exact haft c (List.mem_reverse.1 h)) (by
        intro c h
        refine hc c (.inr ?_)
        rw [← List.head?_reverse]; exact h), List.reverse_reverse]
  unfold curveStyle
  rw [ht]
  refine ⟨(hp _).1.trans ?_, (hp _).2.trans ?_⟩
  · rw [List.map_eq_singleton_iff]
    constructor
    · rintro ⟨c, rfl, h⟩
      rcases (ha.F c).1 h with rfl | rfl <;> simp
    · rintro (rfl | rfl)
      · exact ⟨_, rfl, (ha.F _).2 (by simp)⟩
      · exact ⟨_, rfl, (ha.F _).2 (by simp)⟩
  · have two : ∀ (a b : Char), core.map upper = [a, b] ↔ ∃ x y, core = [x, y] ∧ upper x = a ∧ upper y = b := by
      intro a b
      constructor
      · intro h
        match core, h with
        | [x, y], h => simp only [List.map_cons, List.map_nil, List.cons.injEq, and_true] at h; exact ⟨x, y, rfl, h⟩
      · rintro ⟨x, y, rfl, h1, h2⟩; simp [h1, h2]
    rw [two, two]
    constructor
    · rintro (⟨x, y, rfl, h1, h2⟩ | ⟨x, y, rfl, h1, h2⟩)
      · exact ⟨x, by simpa using (ha.F x).1 h1, y, by simpa using (ha.D y).1 h2, .inl rfl⟩
      · exact ⟨y, by simpa using (ha.F y).1 h2, x, by simpa using (ha.D x).1 h1, .inr rfl⟩
    · rintro ⟨x, hx, y, hy, rfl | rfl⟩
      · exact .inl ⟨x, y, rfl, (ha.F x).2 (by simpa using hx), (ha.D y).2 (by simpa using hy)⟩
      · exact .inr ⟨y, x, rfl, (ha.D y).2 (by simpa using hy), (ha.F x).2 (by simpa using hx)⟩

/-- **C81** Text is underlined if the style has the letter u. -/
theorem underline_letter {upper : Char → Char} {space : Char → Bool} (ha : Alphabet upper space) (s : List Char) :
    Content.has (convertedStyle upper s) Content.underline = true ↔ 'u' ∈ s ∨ 'U' ∈ s := by
  rw [font_style_letters ha]
  split_ifs with h1 h2 h3 <;> simp_all [Content.has, Content.underline]

/-- **C81** SetLineType writes dashes for exactly "dashed" and "dotted"; anything else is a solid line. -/
theorem line_type_names (e : Content.Env) (s : List Char) :
    Content.ops e (.lineType (lineType s).1 (lineType s).2) = [if String.ofList s = "dashed" then .d [5] 2 else if String.ofList s = "dotted" then .d [2, 3] 11 else .d [] 0] := by
  have h : ∀ t : String, String.ofList s = t ↔ s = t.toList := fun t => ⟨by rintro rfl; simp, by rintro rfl; simp⟩
  simp only [Content.ops, lineType, h, decide_eq_true_eq]

theorem defineBlend_value (b : Blend) : defineBlend b.value = some b := by cases b <;> decide +kernel

theorem defineBlend_cases (s : List Char) : (∃ b, s = Blend.value b) ∨ s = [] ∨ defineBlend s = none := by
  by_cases h : ∃ b, s = Blend.value b
  · exact .inl h
  · refine .inr ?_
    have hn : ∀ b, s ≠ Blend.value b := fun b hb => h ⟨b, hb⟩
    by_cases he : s = []
    · exact .inl he
    · refine .inr ?_
      unfold defineBlend
      rw [if_neg (hn _), if_neg (hn _), if_neg (not_or.2 ⟨he, hn _⟩), if_neg (hn _), if_neg (hn _), if_neg (hn _), if_neg (hn _), if_neg (hn _), if_neg (hn _),
        if_neg (hn _), if_neg (hn _), if_neg (hn _), if_neg (hn _), if_neg (hn _), if_neg (hn _), if_neg (hn _)]

/-- **C81** NewTransparency takes an alpha from 0 to 1 and the sixteen blend modes of PDF, each by its name with a slash, and the empty string for
Normal; it keeps what it is given.  Everything else is an error. -/
theorem new_transparency_takes (alpha : ℚ) (s : List Char) :
    ((newTransparency alpha s).isSome ↔ (0 ≤ alpha ∧ alpha ≤ 1) ∧ (s = [] ∨ ∃ n ∈ blendNames, s = n.toList)) ∧
    ∀ a b, newTransparency alpha s = some (a, b) → a = alpha ∧ b.value = (if s = [] then "/Normal".toList else s) := by
  have hd : ∀ b, defineBlend s = some b → b.value = (if s = [] then "/Normal".toList else s) := by
    intro b hb
    rcases defineBlend_cases s with ⟨b', rfl⟩ | rfl | hn
    · rw [defineBlend_value] at hb
      obtain rfl := Option.some.inj hb
      rw [if_neg (by cases b' <;> decide)]
    · obtain rfl : Blend.normal = b := Option.some.inj (((by decide +kernel : defineBlend [] = some .normal)).symm.trans hb)
      rfl
    · rw [hn] at hb; cases hb
  have hs : (defineBlend s).isSome ↔ s = [] ∨ ∃ n ∈ blendNames, s = n.toList := by
    constructor
    · intro h
      obtain ⟨b, hb⟩ := Option.isSome_iff_exists.1 h
      have := hd b hb
      by_cases hn : s = []
      · exact .inl hn
      · rw [if_neg hn] at this
        exact .inr ⟨String.ofList b.value, by cases b <;> decide +kernel, by rw [← this]; simp⟩
    · rintro (rfl | ⟨n, hn, rfl⟩)
      · decide +kernel
      · revert n; decide +kernel
  unfold newTransparency
  by_cases ha : alpha < 0 ∨ alpha > 1
  · rw [if_pos ha]
    refine ⟨?_, by simp⟩
    simp only [Option.isSome_none, Bool.false_eq_true, false_iff]
    rintro ⟨⟨h1, h2⟩, -⟩
    rcases ha with h | h
    · exact absurd h (not_lt.2 h1)
    · exact absurd h (not_lt.2 h2)
  · rw [if_neg ha]
    simp only [not_or, not_lt, gt_iff_lt] at ha
    refine ⟨by rw [Option.isSome_map, hs]; simp [ha], ?_⟩
    intro a b h
    cases hb : defineBlend s with
    | none => rw [hb] at h; simp at h
    | some b' =>
      rw [hb] at h
      simp only [Option.map_some, Option.some.injEq, Prod.mk.injEq] at h
      obtain ⟨rfl, rfl⟩ := h
      exact ⟨rfl, hd _ hb⟩

/-! ### Cases -/

/-- Capitals of the letters used here. -/
def demoUpper (c : Char) : Char :=
  if c = 'b' then 'B' else if c = 'i' ∨ c = 'ı' then 'I' else if c = 'u' then 'U' else if c = 'f' then 'F' else if c = 'd' then 'D' else c

def demoSpace (c : Char) : Bool := c = ' '

theorem demo_alphabet : Alphabet demoUpper demoSpace := by
  constructor
  case letters => decide
  case blank => rfl
  all_goals
    intro c
    unfold demoUpper
    split_ifs with h1 h2 h3 h4 h5 <;> (try rcases h2 with rfl | rfl) <;> (try subst_vars) <;> simp_all

/-- **C81** The letters are looked for in whole words too: "regular" is underlined, "underline" is italic. -/
theorem style_words_fails {upper : Char → Char} {space : Char → Bool} (ha : Alphabet upper space) :
    convertedStyle upper "regular".toList = 4 ∧ convertedStyle upper "underline".toList = 5 ∧ convertedStyle upper "bold".toList = 2 := by
  refine ⟨?_, ?_, ?_⟩ <;> rw [font_style_letters ha] <;> decide +kernel

/-- Underlined, bold and italic, in any order and case; "f" fills a curve, but not a rectangle. -/
example : convertedStyle demoUpper "u-Bi".toList = 7 ∧ curveStyle demoUpper demoSpace " fd ".toList = .both ∧ parseStyle "fd".toList = .stroke ∧
    newTransparency (1 / 2) "/Hue".toList = some (1 / 2, .hue) ∧ newTransparency (1 / 2) "Hue".toList = none := by decide +kernel

end Verif.Props
