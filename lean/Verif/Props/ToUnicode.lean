import Verif.Lemmas.TextRun
import Verif.Props.CharMap
/-! C25: text extracted from the file is the text drawn. -/
namespace Verif.Props
open Verif.TTF Verif.TextRun Verif.TextShow

theorem mapM_map_some {α β γ : Type} {f : β → Option γ} {h : α → β} {g : α → γ} : ∀ {l : List α},
    (∀ a ∈ l, f (h a) = some (g a)) → (l.map h).mapM f = some (l.map g) := by
  intro l
  induction l with
  | nil => intro _; rfl
  | cons a l ih =>
    intro hl
    rw [List.map_cons, List.mapM_cons, hl a (by simp), ih (fun b hb => hl b (by simp [hb]))]
    rfl

theorem isBegin_last {l : Bytes} (h : isBegin l = true) : l.getLast? = some 101 := by
  have := List.isSuffixOf_iff_suffix.1 h
  obtain ⟨t, rfl⟩ := this
  rw [List.getLast?_append]
  have : (lit "beginbfrange").getLast? = some 101 := by decide
  rw [this]; rfl

theorem lines_head {l : Bytes} (rest : Bytes) (h : ∀ b ∈ l, b ≠ 10) : lines (l ++ [10] ++ rest) = l :: lines rest := by
  rw [List.append_assoc]; exact lines_append l rest h

theorem lines_bf (pairs : List (Nat × Nat)) (hu : ∀ g, runeByIndex pairs g < 65536) (rest : Bytes) :
    ∀ gs : List Nat, (∀ g ∈ gs, g < 65536) →
    lines (gs.flatMap (bfLine pairs) ++ rest) = gs.map (fun g => bfLine' g (runeByIndex pairs g)) ++ lines rest := by
  intro gs
  induction gs with
  | nil => intro _; rfl
  | cons g gs ih =>
    intro h
    rw [List.flatMap_cons, bfLine_eq, List.append_assoc, List.append_assoc]
    rw [show ([10] ++ (gs.flatMap (bfLine pairs) ++ rest) : Bytes) = 10 :: (gs.flatMap (bfLine pairs) ++ rest) from rfl]
    rw [lines_append _ _ (bfLine'_ne (h g (by simp)) (hu g)), ih (fun x hx => h x (by simp [hx]))]
    rfl

theorem runeByIndex_lt {pairs : List (Nat × Nat)} (h : ∀ p ∈ pairs, p.2 < 65536) (g : Nat) :
    runeByIndex pairs g < 65536 := by
  unfold runeByIndex
  split
  · next p hp => exact h p (List.mem_of_find?_eq_some hp)
  · omega

theorem lowHigh_bounds (vals : List Nat) (h : ∀ v ∈ vals, v < 65536) (hne : vals ≠ []) :
    (lowHigh vals).1 < 65536 ∧ ∃ n : Nat, (lowHigh vals).2 = n ∧ n < 65536 := by
  unfold lowHigh
  have gen : ∀ (vals : List Nat) (a : Nat × Int), (∀ v ∈ vals, v < 65536) → a.1 < 65536 → (∃ n : Nat, a.2 = n ∧ n < 65536) →
      let r := vals.foldl (fun (a : Nat × Int) (v : Nat) => (if v < a.1 then v else a.1, if (v : Int) > a.2 then (v : Int) else a.2)) a
      r.1 < 65536 ∧ ∃ n : Nat, r.2 = n ∧ n < 65536 := by
    intro vals
    induction vals with
    | nil => intro a _ h1 h2; exact ⟨h1, h2⟩
    | cons v vals ih =>
      intro a hv h1 h2
      simp only [List.foldl_cons]
      apply ih
      · intro x hx; exact hv x (by simp [hx])
      · simp only; split
        · exact hv v (by simp)
        · exact h1
      · simp only; split
        · exact ⟨v, rfl, hv v (by simp)⟩
        · exact h2
  cases vals with
  | nil => exact (hne rfl).elim
  | cons v vals =>
    simp only [List.foldl_cons]
    have hv := h v (by simp)
    apply gen vals _ (fun x hx => h x (by simp [hx]))
    · simp only; rw [if_pos (by omega)]; exact hv
    · simp only; rw [if_pos (by omega)]; exact ⟨v, rfl, hv⟩

/-- The `bfrange` entries a reader finds in the stream. -/
theorem entries_toUnicode (m : CharMap) (hk : ∀ k ∈ m.keys, k < 65536) (hg : ∀ p ∈ glyphRunes m, p.1 < 65536)
    (hne : m.keys ≠ []) :
    entries (toUnicode m) = some ((glyphRunes m).map fun p =>
      ⟨be2 p.1, be2 p.1, be2 (runeByIndex (glyphRunes m) p.1)⟩) := by
  have hr : ∀ g, runeByIndex (glyphRunes m) g < 65536 := by
    apply runeByIndex_lt
    intro p hp
    unfold glyphRunes at hp
    obtain ⟨k, hk', rfl⟩ := List.mem_map.1 hp
    exact hk k hk'
  have hg' : ∀ g ∈ (glyphRunes m).map (·.1), g < 65536 := by
    intro g hgm
    obtain ⟨p, hp, rfl⟩ := List.mem_map.1 hgm
    exact hg p hp
  have hne' : (glyphRunes m).map (·.1) ≠ [] := by
    unfold glyphRunes
    simpa using hne
  obtain ⟨hlo, hi, hhi, hhi'⟩ := lowHigh_bounds _ hg' hne'
  -- split into lines
  have hlines : lines (toUnicode m) =
      [lit "/CIDInit /ProcSet findresource begin", lit "12 dict begin", lit "begincmap",
       lit "/CIDSystemInfo << /Registry (Adobe)/Ordering (UCS)/Supplement 0>> def",
       lit "/CMapName /Adobe-Identity-UCS def /CMapType 2 def",
       lit "1 begincodespacerange",
       [60] ++ hex4 (lowHigh ((glyphRunes m).map (·.1))).1 ++ [62, 60] ++ hex4 hi ++ [62],
       lit "endcodespacerange",
       dec (glyphRunes m).length ++ lit " beginbfrange"] ++
      ((glyphRunes m).map (·.1)).map (fun g => bfLine' g (runeByIndex (glyphRunes m) g)) ++
      [lit "endbfrange", lit "endcmap CMapName currentdict /CMap defineresource pop end end", []] := by
    have c10 : ∀ (t : String) (s : Bytes) (rest : Bytes), lit t = s ++ [10] → (∀ b ∈ s, b ≠ 10) →
        lines (lit t ++ rest) = s :: lines rest := by
      intro t s rest e h
      rw [e]; exact lines_head rest h
    unfold toUnicode
    simp only [hhi, hex4Int, List.append_assoc]
    rw [c10 _ (lit "/CIDInit /ProcSet findresource begin") _ (by decide +kernel) (by decide +kernel)]
    rw [c10 _ (lit "12 dict begin") _ (by decide +kernel) (by decide +kernel)]
    rw [c10 _ (lit "begincmap") _ (by decide +kernel) (by decide +kernel)]
    rw [c10 _ (lit "/CIDSystemInfo << /Registry (Adobe)/Ordering (UCS)/Supplement 0>> def") _ (by decide +kernel) (by decide +kernel)]
    rw [c10 _ (lit "/CMapName /Adobe-Identity-UCS def /CMapType 2 def") _ (by decide +kernel) (by decide +kernel)]
    rw [c10 _ (lit "1 begincodespacerange") _ (by decide +kernel) (by decide +kernel)]
    have hcs : ∀ b ∈ ([60] ++ hex4 (lowHigh ((glyphRunes m).map (·.1))).1 ++ [62, 60] ++ hex4 hi ++ [62] : Bytes), b ≠ 10 := by
      intro b hb
      simp only [List.mem_append, List.mem_cons, List.not_mem_nil, or_false] at hb
      rcases hb with (((rfl | hb) | rfl | rfl) | hb) | rfl
      · decide
      · exact (hex4_ne hlo b hb).2.1
      · decide
      · decide
      · exact (hex4_ne hhi' b hb).2.1
      · decide
    have e1 : ∀ X : Bytes, lines ([60] ++ (padL 4 (hexUp (lowHigh ((glyphRunes m).map (·.1))).1) ++ ([62, 60] ++ (padL 4 (hexUp hi) ++ ([62, 10] ++ X))))) =
        ([60] ++ hex4 (lowHigh ((glyphRunes m).map (·.1))).1 ++ [62, 60] ++ hex4 hi ++ [62]) :: lines X := by
      intro X
      rw [← lines_head X hcs]
      simp [hex4]
    rw [e1]
    rw [c10 _ (lit "endcodespacerange") _ (by decide +kernel) (by decide +kernel)]
    have hcnt : ∀ b ∈ dec (glyphRunes m).length ++ lit " beginbfrange", b ≠ 10 := by
      intro b hb
      rcases List.mem_append.1 hb with hb | hb
      · have := dec_all_digit _ b hb
        rintro rfl; revert this; decide
      · have : ∀ b ∈ lit " beginbfrange", b ≠ 10 := by decide +kernel
        exact this b hb
    have e2 : ∀ X : Bytes, lines (dec (glyphRunes m).length ++ (lit " beginbfrange\n" ++ X)) =
        (dec (glyphRunes m).length ++ lit " beginbfrange") :: lines X := by
      intro X
      rw [← lines_head X hcnt, show lit " beginbfrange\n" = lit " beginbfrange" ++ [10] by decide]
      simp
    rw [e2, lines_bf _ hr _ _ hg']
    rw [c10 _ (lit "endbfrange") _ (by decide +kernel) (by decide +kernel)]
    rw [show lit "endcmap CMapName currentdict /CMap defineresource pop end end" ++ lit "\n" =
      lit "endcmap CMapName currentdict /CMap defineresource pop end end" ++ [10] ++ [] by decide +kernel]
    rw [lines_head _ (by decide +kernel)]
    simp [lines]
  unfold entries
  rw [hlines]
  have b0 : ∀ l : Bytes, isBegin l = false → (!isBegin l) = true := by intro l h; simp [h]
  have hcs : isBegin ([60] ++ hex4 (lowHigh ((glyphRunes m).map (·.1))).1 ++ [62, 60] ++ hex4 hi ++ [62]) = false := by
    cases hh : isBegin ([60] ++ hex4 (lowHigh ((glyphRunes m).map (·.1))).1 ++ [62, 60] ++ hex4 hi ++ [62]) with
    | false => rfl
    | true =>
      have := isBegin_last hh
      rw [List.getLast?_append] at this
      simp at this
  have hcnt : isBegin (dec (glyphRunes m).length ++ lit " beginbfrange") = true := by
    unfold isBegin
    refine List.isSuffixOf_iff_suffix.2 ⟨dec (glyphRunes m).length ++ [32], ?_⟩
    rw [show lit " beginbfrange" = [32] ++ lit "beginbfrange" by decide]
    simp
  simp only [List.cons_append, List.nil_append, List.dropWhile_cons,
    b0 _ (show isBegin (lit "/CIDInit /ProcSet findresource begin") = false by decide +kernel),
    b0 _ (show isBegin (lit "12 dict begin") = false by decide +kernel),
    b0 _ (show isBegin (lit "begincmap") = false by decide +kernel),
    b0 _ (show isBegin (lit "/CIDSystemInfo << /Registry (Adobe)/Ordering (UCS)/Supplement 0>> def") = false by decide +kernel),
    b0 _ (show isBegin (lit "/CMapName /Adobe-Identity-UCS def /CMapType 2 def") = false by decide +kernel),
    b0 _ (show isBegin (lit "1 begincodespacerange") = false by decide +kernel),
    b0 _ (show isBegin (lit "endcodespacerange") = false by decide +kernel), if_true]
  have hcs' := hcs
  simp only [List.cons_append, List.nil_append] at hcs'
  simp only [hcs', hcnt, Bool.not_false, if_true, Bool.not_true, Bool.false_eq_true, if_false, List.drop_succ_cons,
    List.drop_zero]
  have hent : ∀ l ∈ ((glyphRunes m).map (·.1)).map (fun g => bfLine' g (runeByIndex (glyphRunes m) g)),
      (l != lit "endbfrange") = true := by
    intro l hl
    obtain ⟨g, hg2, rfl⟩ := List.mem_map.1 hl
    simp only [bne_iff_ne, ne_eq]
    intro e
    have : (bfLine' g (runeByIndex (glyphRunes m) g)).head? = (lit "endbfrange").head? := by rw [e]
    rw [show (lit "endbfrange").head? = some 101 by decide] at this
    simp [bfLine'] at this
  rw [takeWhile_stop hent (by simp)]
  rw [List.map_map]
  exact mapM_map_some (fun p hp => entry_bfLine' (hg p hp) (hr _))

theorem bigEndian_be2 {n : Nat} (h : n < 65536) : bigEndian (be2 n) = n := by
  have := be2_val h
  simp only [bigEndian, be2, List.foldl_cons, List.foldl_nil]
  omega

theorem units_be2 {n : Nat} (h : n < 65536) : Utf16.units (be2 n) = some [n] := by
  have := units_flat [n] (by simpa using h)
  simpa using this

/-- The first rune registered for a glyph. -/
theorem runeByIndex_spec {pairs : List (Nat × Nat)} {g k : Nat} (h : (g, k) ∈ pairs) :
    (g, runeByIndex pairs g) ∈ pairs := by
  unfold runeByIndex
  split
  · next p hp =>
    have h1 := List.mem_of_find?_eq_some hp
    have h2 := List.find?_some hp
    simp only [beq_iff_eq] at h2
    rw [← h2]
    exact h1
  · next hn =>
    have := List.find?_eq_none.1 hn _ h
    simp at this

/-- **C25** For a font whose used characters are in the Basic Multilingual Plane: the ToUnicode map sends the glyph
code of every used character to one character of the text with that glyph, and to the character itself if no other
used character shares the glyph. -/
theorem toUnicode_maps {s : CharSource} {m : CharMap} (h : CharHistory s m)
    (hk : ∀ k ∈ m.keys, k < 65536 ∧ IsScalar k) (hg : ∀ g ∈ m.vals, g < 65536) {r g : Nat} (hr : m.val r = some g) :
    ∃ r', m.val r' = some g ∧ ToText (toUnicode m) g [r'] ∧
      ((∀ r'', m.val r'' = some g → r'' = r) → r' = r) := by
  have hv : ∀ k ∈ m.keys, ∃ v, m.val k = some v ∧ v < 65536 := by
    intro k hkm
    obtain ⟨v, hv⟩ := h.inv.val_isSome ((h.inv.keyExists_iff k).2 hkm)
    refine ⟨v, hv, ?_⟩
    obtain ⟨i, _, h2⟩ := ((char_map_consistent h).2.2.1 k v).1 hv
    exact hg v (List.mem_of_getElem? h2)
  have hp : ∀ p ∈ glyphRunes m, p.1 < 65536 ∧ p.2 ∈ m.keys ∧ m.val p.2 = some p.1 := by
    intro p hp
    obtain ⟨k, hk', rfl⟩ := List.mem_map.1 hp
    obtain ⟨v, e, hlt⟩ := hv k hk'
    simp only [e, Option.getD_some]
    exact ⟨hlt, hk', trivial⟩
  have hrk : r ∈ m.keys := by
    obtain ⟨i, h1, _⟩ := ((char_map_consistent h).2.2.1 r g).1 hr
    exact List.mem_of_getElem? h1
  have hmem : (g, r) ∈ glyphRunes m := List.mem_map.2 ⟨r, hrk, by simp [hr]⟩
  have hglt : g < 65536 := (hp _ hmem).1
  have hfirst := runeByIndex_spec hmem
  obtain ⟨f1, f2, f3⟩ := hp _ hfirst
  refine ⟨runeByIndex (glyphRunes m) g, f3, ?_, fun hu => hu _ f3⟩
  refine ⟨_, entries_toUnicode m (fun k hk' => (hk k hk').1) (fun p hp' => (hp p hp').1)
    (by intro e; rw [e] at hrk; simp at hrk), ?_, ?_⟩
  · exact ⟨_, List.mem_map.2 ⟨_, hmem, rfl⟩, Nat.le_of_eq (bigEndian_be2 hglt), Nat.le_of_eq (bigEndian_be2 hglt).symm⟩
  · intro e he hlo hhi
    obtain ⟨p, hpm, rfl⟩ := List.mem_map.1 he
    have hplt := (hp p hpm).1
    simp only at hlo hhi
    rw [bigEndian_be2 hplt] at hlo hhi
    obtain rfl : p.1 = g := by omega
    have hu := (hk _ f2)
    unfold Entry.text
    simp only
    rw [if_pos ⟨rfl, rfl, Nat.le_of_eq (bigEndian_be2 hplt), Nat.le_of_eq (bigEndian_be2 hplt).symm⟩, bigEndian_be2 hplt,
      units_be2 hu.1]
    simp only [Option.bind_eq_bind, Option.bind_some, Nat.sub_self, bump, Nat.add_zero, Utf16.decodeUnits]
    rw [if_neg]
    intro hc
    rcases hu.2 with h1 | h1 <;> simp only at h1 <;> omega

/-- Codes among the items shown. -/
def codesOf (items : List Item) : List Nat :=
  items.filterMap fun | .code n => some n | .adjust _ => none

theorem codesOf_tjLoop (f : RunFont) (j : Just) : ∀ (text : List (Nat × Nat)) (left : Nat × Nat),
    codesOf ((tjLoop f j left text).map item) = text.filterMap fun p => f.map.val p.2 := by
  intro text
  induction text with
  | nil => intro left; rfl
  | cons p text ih =>
    intro left
    obtain ⟨i, r⟩ := p
    simp only [tjLoop, List.filterMap_cons]
    cases hv : f.map.val r with
    | none => simpa using ih left
    | some g =>
      simp only [List.map_append, codesOf, List.filterMap_append]
      have e := ih (r, g)
      unfold codesOf at e
      rw [e]
      have h1 : ∀ (c : Prop) [Decidable c] (n : Int),
          ((if c then [TJ.adj n] else []).map item).filterMap (fun | Item.code n => some n | Item.adjust _ => none) = [] := by
        intro c _ n; split <;> simp [item]
      rw [h1]
      cases j with
      | none => simp [item]
      | some t => simp only; rw [h1]; simp [item]

theorem withIndex_runes : ∀ (text : List Nat) (i : Nat), (withIndex i text).map (·.2) = text := by
  intro text
  induction text with
  | nil => intro i; rfl
  | cons r text ih => intro i; simp [withIndex, ih]

theorem small_tjLoop (f : RunFont) (j : Just) (h : ∀ r g, f.map.val r = some g → g < 65536) :
    ∀ (text : List (Nat × Nat)) (left : Nat × Nat), Small (tjLoop f j left text) := by
  intro text
  induction text with
  | nil => intro left g hg; simp [tjLoop] at hg
  | cons p text ih =>
    intro left g hg
    obtain ⟨i, r⟩ := p
    simp only [tjLoop] at hg
    cases hv : f.map.val r with
    | none => rw [hv] at hg; exact ih left g hg
    | some g' =>
      rw [hv] at hg
      simp only [List.mem_append] at hg
      rcases hg with ((hg | hg) | hg) | hg
      · split at hg <;> simp at hg
      · simp at hg; subst hg; exact h r _ hv
      · cases j with
        | none => simp at hg
        | some t => simp only at hg; split at hg <;> simp at hg
      · exact ih _ g hg

/-- **C25** Extracting the text of a text object: reading the TJ array it writes as two-byte codes and mapping every
code through the font's ToUnicode stream gives the text, character by character, whatever kerning and justification
numbers are mixed in; for text whose characters are in the font's map, are in the Basic Multilingual Plane and do
not share their glyph with another used character. -/
theorem extracted_text {s : CharSource} {f : RunFont} (h : CharHistory s f.map)
    (hk : ∀ k ∈ f.map.keys, k < 65536 ∧ IsScalar k) (hg : ∀ g ∈ f.map.vals, g < 65536) (j : Just) {text : List Nat}
    (htext : ∀ r ∈ text, ∃ g, f.map.val r = some g ∧ ∀ r', f.map.val r' = some g → r' = r) :
    ∃ items, readTJ (tjBytes (tjLoop f j (0, 0) (withIndex 0 text))) = some items ∧
      List.Forall₂ (fun code r => ToText (toUnicode f.map) code [r]) (codesOf items) text := by
  have hsmall : ∀ r g, f.map.val r = some g → g < 65536 := by
    intro r g hr
    obtain ⟨i, _, h2⟩ := ((char_map_consistent h).2.2.1 r g).1 hr
    exact hg g (List.mem_of_getElem? h2)
  refine ⟨_, readTJ_tjBytes (small_tjLoop f j hsmall _ _), ?_⟩
  rw [codesOf_tjLoop]
  have e : (withIndex 0 text).filterMap (fun p => f.map.val p.2) = text.filterMap fun r => f.map.val r := by
    conv_rhs => rw [← withIndex_runes text 0]
    rw [List.filterMap_map]; rfl
  rw [e]
  induction text with
  | nil => exact .nil
  | cons r text ih =>
    obtain ⟨g, hv, hu⟩ := htext r (by simp)
    rw [List.filterMap_cons, hv]
    refine .cons ?_ (ih (fun x hx => htext x (by simp [hx])) ?_)
    · obtain ⟨r', _, ht, he⟩ := toUnicode_maps h hk hg hv
      rwa [he hu] at ht
    · conv_rhs => rw [← withIndex_runes text 0]
      rw [List.filterMap_map]; rfl

/-- **C25** (counterexample for characters beyond the Basic Multilingual Plane)  The destination of such a character
is written as its five-digit code point, not as a UTF-16 surrogate pair: a reader does not get the character
back. -/
theorem toUnicode_supplementary_fails : ∃ (s : CharSource) (m : CharMap), CharHistory s m ∧ m.val 0x1F600 = some 9 ∧
    m.keys = [0x1F600] ∧ ¬ ToText (toUnicode m) 9 [0x1F600] := by
  refine ⟨⟨⟨⟨1, [65535], [65535], [1], [0], []⟩, [], [⟨0x1F600, 0x1F601, 9⟩]⟩, none⟩, _, .add [0x1F600] .start,
    by decide +kernel, by decide +kernel, ?_⟩
  rintro ⟨es, he, ⟨e, hm, h1, h2⟩, hall⟩
  have hx : entries (toUnicode (addChars ⟨⟨⟨1, [65535], [65535], [1], [0], []⟩, [], [⟨0x1F600, 0x1F601, 9⟩]⟩, none⟩
      CharMap.empty [0x1F600]).1) = some [⟨[0, 9], [0, 9], [0x1F, 0x60, 0x00]⟩] := by decide +kernel
  rw [hx] at he
  cases he
  simp only [List.mem_singleton] at hm
  subst hm
  have := hall _ (by simp) h1 h2
  revert this; decide +kernel

/-- **C25** (codespace)  The codespace range written is from the smallest to the largest glyph number.  Codespace
ranges are boxes, byte by byte, so used codes can lie outside of it: with glyphs 0x0050 and 0x0103 in use the range
is `<0050><0103>`, and neither code is inside. -/
theorem toUnicode_codespace_fails : lowHigh [0x50, 0x103] = (0x50, 0x103) ∧
    ¬ inCodespace (be2 0x50) (be2 0x103) 0x50 ∧ ¬ inCodespace (be2 0x50) (be2 0x103) 0x103 := by
  refine ⟨by decide, ?_, ?_⟩ <;>
  · rintro ⟨l0, l1, h0, h1, e1, e2, _, _, a, b⟩
    simp [be2] at e1 e2
    obtain ⟨rfl, rfl⟩ := e1
    obtain ⟨rfl, rfl⟩ := e2
    revert a b; decide

/-- The hypotheses of `extracted_text` hold of a small document. -/
def demoRun : RunFont :=
  ⟨1000, 1, [500], (addChars demoSource CharMap.empty [65, 67, 66]).1, true, fun _ _ _ _ => -20⟩

example : CharHistory demoSource demoRun.map ∧ (∀ k ∈ demoRun.map.keys, k < 65536) ∧
    demoRun.map.keys = [65, 67, 66] ∧ demoRun.map.vals = [6, 8, 0] ∧
    tjBytes (tjLoop demoRun none (0, 0) (withIndex 0 [65, 67, 66])) = lit "[<0006>20<0008>20<0000>] TJ\n" :=
  ⟨.add [65, 67, 66] .start, by decide +kernel, by decide +kernel, by decide +kernel, by decide +kernel⟩

end Verif.Props
