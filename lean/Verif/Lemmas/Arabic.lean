import Verif.Lemmas.ArabicTable
import Mathlib.Data.List.Perm.Basic
/- Arabic text: proofs. -/
namespace Verif.ArabicTable
open Arabic

theorem forms_distinct : ∀ h ∈ collection, ∀ h' ∈ collection, h ≠ h' →
    ∀ c ∈ [h'.unicode, h'.beginning, h'.isolated, h'.middle, h'.final], h.equals c = false := by
  decide +kernel

theorem equals_mem {h : Harf} {c : Nat} (e : h.equals c = true) : c ∈ [h.unicode, h.beginning, h.isolated, h.middle, h.final] := by
  unfold Harf.equals at e
  simp only [Bool.or_eq_true, beq_iff_eq] at e
  simp only [List.mem_cons, List.not_mem_nil, or_false]
  grind

theorem unique {h h' : Harf} {c : Nat} (hh : h ∈ collection) (hh' : h' ∈ collection) (e : h.equals c = true)
    (e' : h'.equals c = true) : h = h' := by
  by_contra hne
  rw [forms_distinct h hh h' hh' hne c (equals_mem e')] at e
  exact absurd e (by simp)

theorem forms_no_marks : ∀ h ∈ collection, ∀ c ∈ [h.unicode, h.beginning, h.isolated, h.middle, h.final], isTashkeel c = false := by
  decide +kernel

theorem getHarf_mem {c : Nat} (h : inAlphabet c = true) : getHarf c ∈ collection ∧ (getHarf c).equals c = true := by
  unfold inAlphabet at h
  unfold getHarf
  cases hf : collection.find? (·.equals c) with
  | none =>
    rw [List.find?_eq_none] at hf
    obtain ⟨x, hx, hc⟩ := List.any_eq_true.1 h
    exact absurd hc (hf x hx)
  | some x => exact ⟨List.mem_of_find?_eq_some hf, List.find?_some (p := fun h : Harf => h.equals c) hf⟩

theorem shape_cases (prev cur next : Nat) (h : inAlphabet cur = true) : getCharShape prev cur next =
    if inAlphabet prev && !(rightJoiningOnly.any (·.equals prev)) then
      (if inAlphabet next then (getHarf cur).middle else (getHarf cur).final)
    else (if inAlphabet next then (getHarf cur).beginning else (getHarf cur).isolated) := by
  unfold getCharShape
  cases inAlphabet prev <;> cases inAlphabet next <;> cases (rightJoiningOnly.any (·.equals prev)) <;> simp [h]

theorem equals_forms (h : Harf) : h.equals h.middle = true ∧ h.equals h.final = true ∧ h.equals h.beginning = true ∧
    h.equals h.isolated = true ∧ h.equals h.unicode = true := by
  simp [Harf.equals]

/-- A letter is drawn by one of its forms, and never by a mark. -/
theorem shape_form (prev cur next : Nat) : Form cur (getCharShape prev cur next) := by
  cases h : inAlphabet cur
  · exact .inr ⟨h, by simp [getCharShape, h]⟩
  · obtain ⟨hm, he⟩ := getHarf_mem h
    refine .inl ⟨_, hm, he, ?_⟩
    rw [shape_cases prev cur next h]
    obtain ⟨f1, f2, f3, f4, f5⟩ := equals_forms (getHarf cur)
    split <;> split <;> assumption

theorem form_not_mark {r b : Nat} (hr : isTashkeel r = false) (h : Form r b) : isTashkeel b = false := by
  rcases h with ⟨x, hx, -, hb⟩ | ⟨-, rfl⟩
  · exact forms_no_marks x hx b (equals_mem hb)
  · exact hr

theorem mem_take {p : Nat → Bool} {m : Nat} : ∀ {l : List Nat}, m ∈ l.takeWhile p → p m = true := by
  intro l
  induction l with
  | nil => simp
  | cons a l ih =>
    intro h
    rw [List.takeWhile_cons] at h
    split at h
    · next hp =>
      rcases List.mem_cons.1 h with rfl | h
      · exact hp
      · exact ih h
    · simp at h

/-! ### Reversing -/

/-- Marks as they are between reading and reversing: marks of the text and ligatures. -/
def IsMarkOut (m : Nat) : Prop := isTashkeel m = true ∨ ∃ v, (v, m) ∈ shaddaLigatures

theorem lig_not_mark : ∀ p ∈ shaddaLigatures, isTashkeel p.2 = false := by decide +kernel

theorem groups_append : ∀ (l : List Nat) (acc : List (Nat × List Nat)), StartsPlain l → groups acc l = groups [] l ++ acc := by
  have key : ∀ (l : List Nat) (g : Nat × List Nat) (acc : List (Nat × List Nat)), groups (g :: acc) l = groups [g] l ++ acc := by
    intro l
    induction l with
    | nil => intro g acc; simp [groups]
    | cons r l ih =>
      intro g acc
      simp only [groups]
      cases isTashkeel r
      · simp only [Bool.false_eq_true, if_false]
        rw [ih (r, []) (g :: acc), ih (r, []) [g]]
        simp
      · simp only [if_true]
        rw [ih]
  intro l acc h
  cases l with
  | nil => cases acc <;> simp [groups]
  | cons r l =>
    have hr := h r l rfl
    cases acc with
    | nil => simp
    | cons g acc =>
      simp only [groups, hr, Bool.false_eq_true, if_false]
      rw [key l (r, []) (g :: acc)]

theorem groups_marks : ∀ (ms l : List Nat) (g : Nat × List Nat), (∀ m ∈ ms, isTashkeel m = true) →
    groups [g] (ms ++ l) = groups [(g.1, g.2 ++ ms)] l := by
  intro ms
  induction ms with
  | nil => intro l g _; simp
  | cons m ms ih =>
    intro l g h
    simp only [List.cons_append, groups, h m (by simp), if_true]
    rw [ih l _ (fun x hx => h x (by simp [hx]))]
    simp

theorem reverse_cluster (b : Nat) (ms l : List Nat) (hb : isTashkeel b = false) (hm : ∀ m ∈ ms, isTashkeel m = true) (hl : StartsPlain l) :
    reverseWithTashkeel (b :: ms ++ l) = reverseWithTashkeel l ++ (ms ++ [b]) := by
  unfold reverseWithTashkeel
  rw [List.cons_append]
  simp only [groups, hb, Bool.false_eq_true, if_false]
  rw [groups_marks ms l (b, []) hm, groups_append l _ hl]
  simp

/-- A base followed by marks and ligatures: reversed, they stand before the base. -/
theorem reverse_marks : ∀ (n : Nat) (ms : List Nat) (b : Nat) (l : List Nat), ms.length ≤ n → isTashkeel b = false →
    (∀ m ∈ ms, IsMarkOut m) → StartsPlain l →
    ∃ out, out.Perm ms ∧ reverseWithTashkeel (b :: ms ++ l) = reverseWithTashkeel l ++ (out ++ [b]) := by
  intro n
  induction n with
  | zero =>
    intro ms b l hn hb _ hl
    obtain rfl : ms = [] := List.length_eq_zero_iff.1 (by omega)
    exact ⟨[], List.Perm.refl _, reverse_cluster b [] l hb (by simp) hl⟩
  | succ n ih =>
    intro ms b l hn hb hm hl
    have hsplit : ms = ms.takeWhile isTashkeel ++ ms.dropWhile isTashkeel := (List.takeWhile_append_dropWhile).symm
    have htake : ∀ m ∈ ms.takeWhile isTashkeel, isTashkeel m = true := fun m h => mem_take h
    cases hd : ms.dropWhile isTashkeel with
    | nil =>
      rw [hd, List.append_nil] at hsplit
      refine ⟨ms, List.Perm.refl _, reverse_cluster b ms l hb ?_ hl⟩
      rw [hsplit]; exact htake
    | cons x rest =>
      have hx : isTashkeel x = false := by
        have := List.head?_dropWhile_not isTashkeel ms
        rw [hd] at this
        simpa using this
      rw [hd] at hsplit
      have hlen : rest.length ≤ n := by
        have := congrArg List.length hsplit
        simp only [List.length_append, List.length_cons] at this
        omega
      obtain ⟨out, hp, heq⟩ := ih rest x l hlen hx (fun m h => hm m (by rw [hsplit]; simp [h])) hl
      refine ⟨out ++ [x] ++ ms.takeWhile isTashkeel, ?_, ?_⟩
      · refine List.perm_append_comm.trans ?_
        conv_rhs => rw [hsplit]
        refine List.Perm.append_left _ ?_
        exact List.perm_append_comm.trans (List.Perm.cons _ hp)
      · have h1 : b :: ms ++ l = b :: ms.takeWhile isTashkeel ++ (x :: rest ++ l) := by
          conv_lhs => rw [hsplit]
          simp
        have h2 := reverse_cluster b (ms.takeWhile isTashkeel) (x :: rest ++ l) hb htake
          (by intro m r h; simp only [List.cons_append, List.cons.injEq] at h; rw [← h.1]; exact hx)
        rw [h1, h2, heq]
        simp

/-! ### The loop -/

theorem expand_mark {m : Nat} (h : isTashkeel m = true) : expandMark m = [m] := by
  unfold expandMark
  cases hf : shaddaLigatures.find? (·.2 = m) with
  | none => rfl
  | some p =>
    have h1 := List.mem_of_find?_eq_some hf
    have h2 : p.2 = m := by simpa using List.find?_some (p := fun p : Nat × Nat => decide (p.2 = m)) hf
    have := lig_not_mark p h1
    rw [h2, h] at this
    exact absurd this (by simp)

theorem lookup_mem {v l : Nat} (h : shaddaLigature v = some l) : (v, l) ∈ shaddaLigatures := by
  unfold shaddaLigature at h
  generalize shaddaLigatures = q at h
  induction q with
  | nil => simp at h
  | cons p q ih =>
    obtain ⟨x, y⟩ := p
    rw [List.lookup_cons] at h
    split at h
    · next hx =>
      simp only [beq_iff_eq] at hx
      simp only [Option.some.injEq] at h
      simp [hx, h]
    · exact List.mem_cons_of_mem _ (ih h)

theorem expand_lig : ∀ p ∈ shaddaLigatures, expandMark p.2 = [p.1, shadda] := by decide +kernel

theorem shadda_mark : isTashkeel shadda = true := by decide

theorem previous_mark {m : Nat} {before : List Nat} (h : isTashkeel m = true) : findPrevious (m :: before) = findPrevious before := by
  simp [findPrevious, h]

theorem previous_plain {m : Nat} {before : List Nat} (h : isTashkeel m = false) : findPrevious (m :: before) = m := by
  simp [findPrevious, h]

theorem next_front (ms rest : List Nat) (hm : ∀ m ∈ ms, isTashkeel m = true) (hs : StartsPlain rest) :
    findNext (ms ++ rest) = rest.headD 0 := by
  induction ms with
  | nil =>
    cases rest with
    | nil => rfl
    | cons r rest => simp [findNext, hs r rest rfl]
  | cons m ms ih =>
    have := ih (fun x hx => hm x (by simp [hx]))
    simpa [findNext, hm m (by simp)] using this

/-- Marks up to the next letter. -/
theorem loop_marks : ∀ (n : Nat) (ms rest before : List Nat) (fuel : Nat), ms.length ≤ n → (∀ m ∈ ms, isTashkeel m = true) →
    StartsPlain rest → (ms ++ rest).length ≤ fuel →
    ∃ out before' fuel', loop fuel before (ms ++ rest) = out ++ loop fuel' before' rest ∧ out.flatMap expandMark = ms ∧
      (∀ m ∈ out, IsMarkOut m) ∧ rest.length ≤ fuel' ∧ findPrevious before' = findPrevious before := by
  intro n
  induction n with
  | zero =>
    intro ms rest before fuel hn _ _ hf
    obtain rfl : ms = [] := List.length_eq_zero_iff.1 (by omega)
    exact ⟨[], before, fuel, rfl, rfl, by simp, by simpa using hf, rfl⟩
  | succ n ih =>
    intro ms rest before fuel hn hm hs hf
    cases ms with
    | nil => exact ⟨[], before, fuel, rfl, rfl, by simp, by simpa using hf, rfl⟩
    | cons m ms =>
      simp only [List.length_cons, List.cons_append] at hn hf
      obtain ⟨fuel, rfl⟩ : ∃ k, fuel = k + 1 := ⟨fuel - 1, by omega⟩
      have hm0 := hm m (by simp)
      simp only [List.cons_append, loop, hm0, if_true]
      cases hp : shaddaPair m (ms ++ rest) with
      | none =>
        obtain ⟨out, b', f', h1, h2, h3, h4, h5⟩ := ih ms rest (m :: before) fuel (by omega) (fun x hx => hm x (by simp [hx])) hs (by omega)
        refine ⟨m :: out, b', f', by simp [h1], by simp [h2, expand_mark hm0], ?_, h4, by rw [h5, previous_mark hm0]⟩
        intro x hx
        rcases List.mem_cons.1 hx with rfl | hx
        · exact .inl hm0
        · exact h3 x hx
      | some p =>
        obtain ⟨l, rest'⟩ := p
        unfold shaddaPair at hp
        cases ms with
        | nil =>
          cases rest with
          | nil => simp at hp
          | cons r rest =>
            simp only [List.nil_append] at hp
            split at hp
            · next hc =>
              have := hs r rest rfl
              rw [hc.1, shadda_mark] at this
              exact absurd this (by simp)
            · exact absurd hp (by simp)
        | cons s ms =>
          simp only [List.cons_append] at hp
          split at hp
          · next hc =>
            obtain ⟨l', hl, he⟩ := Option.map_eq_some_iff.1 hp
            simp only [Prod.mk.injEq] at he
            obtain ⟨rfl, rfl⟩ := he
            obtain ⟨out, b', f', h1, h2, h3, h4, h5⟩ := ih ms rest (shadda :: m :: before) fuel (by simp only [List.length_cons] at hn; omega)
              (fun x hx => hm x (by simp [hx])) hs (by simp only [List.length_cons, List.cons_append] at hf; omega)
            have hmem := lookup_mem hl
            refine ⟨l' :: out, b', f', by simp [h1], by simp [h2, expand_lig _ hmem, hc.1], ?_, h4, by rw [h5, previous_mark shadda_mark, previous_mark hm0]⟩
            intro x hx
            rcases List.mem_cons.1 hx with rfl | hx
            · exact .inr ⟨m, hmem⟩
            · exact h3 x hx
          · exact absurd hp (by simp)

/-- Text after replacing the word Allah. -/
inductive Conv : List Nat → List Nat → Prop where
  | nil : Conv [] []
  | cons (r : Nat) {x t : List Nat} (h : Conv x t) : Conv (r :: x) (r :: t)
  | allah {x t : List Nat} (h : Conv x t) : Conv (0x0627 :: 0x0644 :: 0x0644 :: 0x0647 :: x) (0xFDF2 :: t)

theorem conv : ∀ (n : Nat) (x : List Nat), x.length ≤ n → Conv x (convertAllah x) := by
  intro n
  induction n with
  | zero => intro x h; obtain rfl : x = [] := List.length_eq_zero_iff.1 (by omega)
            exact .nil
  | succ n ih =>
    intro x h
    match x with
    | [] => exact .nil
    | [a] => exact .cons a .nil
    | [a, b] => exact .cons a (.cons b .nil)
    | [a, b, c] => exact .cons a (.cons b (.cons c .nil))
    | a :: b :: c :: d :: rest =>
      simp only [List.length_cons] at h
      unfold convertAllah
      split
      · next hc =>
        obtain ⟨rfl, rfl, rfl, rfl⟩ := hc
        exact .allah (ih rest (by omega))
      · exact .cons a (ih _ (by simp only [List.length_cons]; omega))

/-- Marks are not touched. -/
theorem conv_marks : ∀ (ms : List Nat) {x rest : List Nat}, Conv x (ms ++ rest) → (∀ m ∈ ms, isTashkeel m = true) →
    ∃ x', x = ms ++ x' ∧ Conv x' rest := by
  intro ms
  induction ms with
  | nil => intro x rest h _; exact ⟨x, rfl, h⟩
  | cons m ms ih =>
    intro x rest h hm
    cases h with
    | cons r h =>
      obtain ⟨x', rfl, h'⟩ := ih h (fun y hy => hm y (by simp [hy]))
      exact ⟨x', rfl, h'⟩
    | allah h => exact absurd (hm 0xFDF2 (by simp)) (by decide)

theorem conv_plain {x t : List Nat} (h : Conv x t) (ht : StartsPlain t) : StartsPlain x := by
  cases h with
  | nil => exact ht
  | cons r h => intro m rest e; simp only [List.cons.injEq] at e; exact e.1 ▸ ht r _ rfl
  | allah h => intro m rest e; simp only [List.cons.injEq] at e; exact e.1 ▸ (by decide)

/-- Reading the converted text is reading the text. -/
theorem reads_conv {prev : Nat} {t : List Nat} {cs : List (Nat × List Nat)} (h : Reads anyForm prev t cs) :
    ∀ {x : List Nat}, Conv x t → Reads anyForm prev x cs := by
  induction h with
  | nil prev => intro x hc; cases hc; exact .nil prev
  | letter prev r b ms drawn rest cs hr hf hm hs h ih =>
    intro x hc
    rw [List.cons_append] at hc
    cases hc with
    | cons _ hc =>
      obtain ⟨x', rfl, hc'⟩ := conv_marks ms hc hm.1
      exact .letter prev r b ms drawn x' cs hr hf hm (conv_plain hc' hs) (ih hc')
    | allah hc =>
      obtain ⟨x', rfl, hc'⟩ := conv_marks ms hc hm.1
      rcases hf with ⟨h0, h1, h2, -⟩ | ⟨-, rfl⟩
      · exact absurd (List.any_eq_true.2 ⟨h0, h1, h2⟩ : inAlphabet 0xFDF2 = true) (by decide +kernel)
      · exact .allah prev ms drawn x' cs hm (conv_plain hc' hs) (ih hc')
  | lamAlef prev a l b ms1 ms2 drawn rest cs hl hf h1 hm hs h ih =>
    intro x hc
    simp only [List.cons_append, List.append_assoc] at hc
    cases hc with
    | cons _ hc =>
      obtain ⟨x', rfl, hc'⟩ := conv_marks ms1 hc h1
      have ha : a ≠ 0xFDF2 := by rcases hl with ⟨rfl, -⟩ | ⟨rfl, -⟩ <;> decide
      cases hc' with
      | cons _ hc' =>
        obtain ⟨x'', rfl, hc''⟩ := conv_marks ms2 hc' (fun m h => hm.1 m (by simp [h]))
        have := Reads.lamAlef prev a l b ms1 ms2 drawn x'' cs hl hf h1 hm (conv_plain hc'' hs) (ih hc'')
        simpa using this
      | allah hc' => exact absurd rfl ha
  | allah prev ms drawn rest cs hm hs h ih =>
    intro x hc
    cases hc with
    | cons _ hc => cases hc with
      | cons _ hc => cases hc with
        | cons _ hc => cases hc with
          | cons _ hc =>
            obtain ⟨x', rfl, hc'⟩ := conv_marks ms hc hm.1
            exact .allah prev ms drawn x' cs hm (conv_plain hc' hs) (ih hc')

theorem find_split {rest : List Nat} {a : Nat} (h : rest.find? (!isTashkeel ·) = some a) :
    rest = rest.takeWhile isTashkeel ++ a :: (rest.dropWhile isTashkeel).tail ∧ isTashkeel a = false ∧
      rest.takeWhile (· ≠ a) = rest.takeWhile isTashkeel ∧ (rest.dropWhile (· ≠ a)).tail = (rest.dropWhile isTashkeel).tail := by
  induction rest with
  | nil => simp at h
  | cons r rest ih =>
    cases hr : isTashkeel r
    · simp only [List.find?_cons, hr, Bool.not_false, Option.some.injEq] at h
      subst h
      simp [hr]
    · simp only [List.find?_cons, hr, Bool.not_true] at h
      obtain ⟨h1, h2, h3, h4⟩ := ih h
      have hne : r ≠ a := by rintro rfl; rw [hr] at h2; exact absurd h2 (by simp)
      refine ⟨?_, h2, ?_, ?_⟩
      · simp only [List.takeWhile_cons, List.dropWhile_cons, hr, if_true, List.cons_append, List.cons.injEq, true_and]
        exact h1
      · simp only [List.takeWhile_cons, hr, hne, ne_eq, not_false_eq_true, decide_true, if_true, List.cons.injEq, true_and]
        exact h3
      · simp only [List.dropWhile_cons, hr, hne, ne_eq, not_false_eq_true, decide_true, if_true]
        exact h4

/-- The marks at the front. -/
theorem front_marks (rest : List Nat) : (∀ m ∈ rest.takeWhile isTashkeel, isTashkeel m = true) ∧ StartsPlain (rest.dropWhile isTashkeel) ∧
    rest = rest.takeWhile isTashkeel ++ rest.dropWhile isTashkeel := by
  refine ⟨fun m h => mem_take h, ?_, (List.takeWhile_append_dropWhile).symm⟩
  intro m r h
  have := List.head?_dropWhile_not isTashkeel rest
  rw [h] at this
  simpa using this

theorem perm_expand {out out' ms : List Nat} (h : out'.Perm out) (he : out.flatMap expandMark = ms) : (out'.flatMap expandMark).Perm ms := by
  rw [← he]
  exact h.flatMap_right _

theorem loop_reads (P : Drawing) (hP : ∀ prev cur next, P prev cur next (getCharShape prev cur next)) : ∀ (n : Nat) (t before : List Nat) (fuel : Nat), t.length ≤ n → t.length ≤ fuel → StartsPlain t →
    StartsPlain (loop fuel before t) ∧
    ∃ cs, Reads P (findPrevious before) t cs ∧ reverseWithTashkeel (loop fuel before t) = rightToLeft cs := by
  intro n
  induction n with
  | zero =>
    intro t before fuel h _ _
    obtain rfl : t = [] := List.length_eq_zero_iff.1 (by omega)
    have : loop fuel before [] = [] := by cases fuel <;> rfl
    rw [this]
    exact ⟨by intro m r h; simp at h, [], .nil _, rfl⟩
  | succ n ih =>
    intro t before fuel hn hf hs
    cases t with
    | nil =>
      have : loop fuel before [] = [] := by cases fuel <;> rfl
      rw [this]
      exact ⟨by intro m r h; simp at h, [], .nil _, rfl⟩
    | cons cur rest =>
      have hcur := hs cur rest rfl
      simp only [List.length_cons] at hn hf
      obtain ⟨fuel, rfl⟩ : ∃ k, fuel = k + 1 := ⟨fuel - 1, by omega⟩
      simp only [loop, hcur, Bool.false_eq_true, if_false]
      -- the rest of a cluster, given what the letter step does
      have cluster : ∀ (b : Nat) (bm r : List Nat) (bf : List Nat), isTashkeel b = false → (∀ m ∈ bm, isTashkeel m = true) →
          r.length ≤ n → r.length ≤ fuel →
          StartsPlain (b :: bm ++ loop fuel bf r) ∧ ∃ drawn cs', MarksDrawn (bm ++ r.takeWhile isTashkeel) drawn ∧
            Reads P (findPrevious bf) (r.dropWhile isTashkeel) cs' ∧
            reverseWithTashkeel (b :: bm ++ loop fuel bf r) = rightToLeft ((b, drawn) :: cs') := by
        intro b bm r bf hb hbm hrn hrf
        obtain ⟨f1, f2, f3⟩ := front_marks r
        have hlen : (r.dropWhile isTashkeel).length ≤ r.length := by
          have := congrArg List.length f3
          simp only [List.length_append] at this
          omega
        obtain ⟨out, b', f', l1, l2, l3, l4, l5⟩ := loop_marks _ (r.takeWhile isTashkeel) (r.dropWhile isTashkeel) bf fuel (Nat.le_refl _) f1 f2
          (by rw [← f3]; exact hrf)
        obtain ⟨p1, cs', p2, p3⟩ := ih (r.dropWhile isTashkeel) b' f' (by omega) l4 f2
        obtain ⟨o, o1, o2⟩ := reverse_marks _ (bm ++ out) b (loop f' b' (r.dropWhile isTashkeel)) (Nat.le_refl _) hb (by
          intro m hm
          rcases List.mem_append.1 hm with hm | hm
          · exact .inl (hbm m hm)
          · exact l3 m hm) p1
        rw [l5] at p2
        refine ⟨by intro m q h; simp only [List.cons_append, List.cons.injEq] at h; exact h.1 ▸ hb, o, cs', ⟨?_, ?_⟩, p2, ?_⟩
        · intro m hm
          rcases List.mem_append.1 hm with hm | hm
          · exact hbm m hm
          · exact f1 m hm
        · refine perm_expand o1 ?_
          rw [List.flatMap_append, l2]
          congr 1
          clear o1 o2
          induction bm with
          | nil => rfl
          | cons m bm ihb =>
            rw [List.flatMap_cons, ihb (fun x hx => hbm x (by simp [hx])), expand_mark (hbm m (by simp))]
            rfl
        · have : b :: bm ++ loop fuel bf r = b :: (bm ++ out) ++ loop f' b' (r.dropWhile isTashkeel) := by
            conv_lhs => rw [f3]
            rw [l1]; simp
          rw [this, o2, p3]
          simp [rightToLeft]
      -- the two kinds of letters
      cases hlig : (if cur = lam.unicode then lamLigature (findNext rest) else none) with
      | none =>
        have hstep : letterStep before cur rest = ([getCharShape (findPrevious before) cur (findNext rest)], [cur], rest) := by
          simp only [letterStep, hlig]
        rw [hstep]
        have hform := shape_form (findPrevious before) cur (findNext rest)
        obtain ⟨c1, drawn, cs', c2, c3, c4⟩ := cluster (getCharShape (findPrevious before) cur (findNext rest)) [] rest
          ([cur].reverse ++ before) (form_not_mark hcur hform) (by simp) (by omega) (by omega)
        refine ⟨c1, _, ?_, c4⟩
        obtain ⟨f1, f2, f3⟩ := front_marks rest
        rw [show findPrevious ([cur].reverse ++ before) = cur from previous_plain hcur] at c3
        have hnext := next_front _ _ f1 f2
        rw [← f3] at hnext
        have := Reads.letter (findPrevious before) cur _ (rest.takeWhile isTashkeel) drawn (rest.dropWhile isTashkeel) cs' hcur
          (show P _ _ _ (getCharShape (findPrevious before) cur (findNext rest)) by rw [← hnext]; exact hP _ _ _) c2 f2 c3
        rwa [List.cons_append, ← f3] at this
      | some l =>
        have hlam : cur = lam.unicode := by
          by_contra hc; rw [if_neg hc] at hlig; exact absurd hlig (by simp)
        rw [if_pos hlam] at hlig
        have hl : findNext rest = 0x0627 ∧ l = lam_alef ∨ findNext rest = 0x0623 ∧ l = lam_alef_hamza_above := by
          unfold lamLigature at hlig
          split at hlig
          · next h => exact .inl ⟨h, (Option.some.inj hlig).symm⟩
          · split at hlig
            · next h => exact .inr ⟨h, (Option.some.inj hlig).symm⟩
            · exact absurd hlig (by simp)
        have hfind : rest.find? (!isTashkeel ·) = some (findNext rest) := by
          unfold findNext at hl ⊢
          cases hx : rest.find? (!isTashkeel ·) with
          | none => rw [hx] at hl; simp at hl
          | some a => rfl
        obtain ⟨s1, s2, s3, s4⟩ := find_split hfind
        have hstep : letterStep before cur rest = (getCharShape (findPrevious before) l.unicode (findNext (rest.dropWhile isTashkeel).tail) ::
            rest.takeWhile isTashkeel, cur :: rest.takeWhile isTashkeel ++ [findNext rest], (rest.dropWhile isTashkeel).tail) := by
          simp only [letterStep, hlam, if_true, hlig, s3, s4]
          rw [List.filter_eq_self.2 (front_marks rest).1]
        rw [hstep]
        have hform := shape_form (findPrevious before) l.unicode (findNext (rest.dropWhile isTashkeel).tail)
        have hlm : isTashkeel l.unicode = false := by rcases hl with ⟨-, rfl⟩ | ⟨-, rfl⟩ <;> decide
        have hlen : (rest.dropWhile isTashkeel).tail.length ≤ rest.length := by
          have := congrArg List.length s1
          simp only [List.length_append, List.length_cons] at this
          omega
        obtain ⟨c1, drawn, cs', c2, c3, c4⟩ := cluster (getCharShape (findPrevious before) l.unicode (findNext (rest.dropWhile isTashkeel).tail))
          (rest.takeWhile isTashkeel) (rest.dropWhile isTashkeel).tail
          ((cur :: rest.takeWhile isTashkeel ++ [findNext rest]).reverse ++ before) (form_not_mark hlm hform) (front_marks rest).1
          (by omega) (by omega)
        refine ⟨c1, _, ?_, c4⟩
        obtain ⟨f1, f2, f3⟩ := front_marks (rest.dropWhile isTashkeel).tail
        have hnext := next_front _ _ f1 f2
        rw [← f3] at hnext
        rw [show findPrevious ((cur :: rest.takeWhile isTashkeel ++ [findNext rest]).reverse ++ before) = findNext rest by
          simp only [List.reverse_append, List.reverse_cons, List.reverse_nil, List.nil_append, List.singleton_append, List.cons_append, List.append_assoc]
          exact previous_plain s2] at c3
        have := Reads.lamAlef (findPrevious before) (findNext rest) l _ (rest.takeWhile isTashkeel) ((rest.dropWhile isTashkeel).tail.takeWhile isTashkeel)
          drawn ((rest.dropWhile isTashkeel).tail.dropWhile isTashkeel) cs' hl
          (show P _ _ _ (getCharShape (findPrevious before) l.unicode (findNext (rest.dropWhile isTashkeel).tail)) by
            rw [← hnext]; exact hP _ _ _) (front_marks rest).1 c2 f2 c3
        simp only [List.append_assoc, List.cons_append] at this
        rw [← f3, ← s1] at this
        rw [hlam]
        exact this

/-! ### The form in context -/

theorem joinsNext_eq (c : Nat) (h : inAlphabet c = true) : joinsNext c = !endsJoin.contains (getHarf c) := by
  obtain ⟨hm, he⟩ := getHarf_mem h
  unfold joinsNext
  cases hc : endsJoin.contains (getHarf c)
  · exact List.any_eq_true.2 ⟨_, hm, by rw [he, hc]; rfl⟩
  · refine List.any_eq_false.2 fun x hx => ?_
    cases hxe : x.equals c
    · simp
    · rw [unique hx hm hxe he, hc]; simp

theorem joinsPrev_eq (c : Nat) (h : inAlphabet c = true) : joinsPrev c = (getHarf c != hamza) := by
  obtain ⟨hm, he⟩ := getHarf_mem h
  unfold joinsPrev
  cases hc : (getHarf c != hamza)
  · refine List.any_eq_false.2 fun x hx => ?_
    cases hxe : x.equals c
    · simp
    · rw [unique hx hm hxe he, hc]; simp
  · exact List.any_eq_true.2 ⟨_, hm, by rw [he, hc]; rfl⟩

theorem joins_none (c : Nat) (h : inAlphabet c = false) : joinsNext c = false ∧ joinsPrev c = false := by
  have h' := List.any_eq_false.1 h
  refine ⟨List.any_eq_false.2 fun x hx => ?_, List.any_eq_false.2 fun x hx => ?_⟩ <;>
  · have := h' x hx
    simp only [Bool.not_eq_true] at this
    simp [this]

theorem right_eq (c : Nat) (h : inAlphabet c = true) : rightJoiningOnly.any (·.equals c) = rightJoiningOnly.contains (getHarf c) := by
  obtain ⟨hm, he⟩ := getHarf_mem h
  have hsub : ∀ x ∈ rightJoiningOnly, x ∈ collection := by decide +kernel
  cases hc : rightJoiningOnly.contains (getHarf c)
  · refine List.any_eq_false.2 fun x hx => ?_
    intro hxe
    rw [unique (hsub x hx) hm hxe he] at hx
    rw [List.contains_iff_mem.2 hx] at hc
    exact absurd hc (by simp)
  · exact List.any_eq_true.2 ⟨_, List.contains_iff_mem.1 hc, he⟩

theorem right_endsJoin : ∀ h ∈ collection, h ≠ jeh → h ≠ lam_alef → h ≠ lam_alef_hamza_above →
    rightJoiningOnly.contains h = endsJoin.contains h := by decide +kernel

theorem table_forms : ∀ h ∈ collection, ∀ (before after : Bool), (h = teh_marbuta → after = false) →
    (if before then (if after then h.middle else h.final) else (if after then h.beginning else h.isolated)) ∈ forms h before after := by
  decide +kernel

theorem shape_context (prev cur next : Nat) : mostlyInContext prev cur next (getCharShape prev cur next) := by
  refine ⟨shape_form prev cur next, fun hm h hh he => ?_⟩
  have hcur : inAlphabet cur = true := List.any_eq_true.2 ⟨h, hh, he⟩
  obtain ⟨cm, ce⟩ := getHarf_mem hcur
  obtain rfl : h = getHarf cur := unique hh cm he ce
  rw [shape_cases prev cur next hcur]
  unfold misdrawn at hm
  push Not at hm
  obtain ⟨m1, m2, m3, m4, m5⟩ := hm
  have hp : (inAlphabet prev && !(rightJoiningOnly.any (·.equals prev))) = joinsNext prev := by
    cases ha : inAlphabet prev
    · simp [(joins_none prev ha).1]
    · obtain ⟨pm, pe⟩ := getHarf_mem ha
      rw [right_eq prev ha, joinsNext_eq prev ha, right_endsJoin _ pm]
      · rfl
      · intro h0; exact m1 (h0 ▸ pe)
      · intro h0; exact m2 (h0 ▸ pe)
      · intro h0; exact m3 (h0 ▸ pe)
  have hn : inAlphabet next = joinsPrev next := by
    cases ha : inAlphabet next
    · rw [(joins_none next ha).2]
    · obtain ⟨pm, pe⟩ := getHarf_mem ha
      rw [joinsPrev_eq next ha]
      refine (bne_iff_ne.2 ?_).symm
      intro h0; exact m4 (h0 ▸ pe)
  rw [hp, hn]
  refine table_forms _ cm _ _ (fun h0 => ?_)
  have := m5 (h0 ▸ ce)
  simpa using this

end Verif.ArabicTable
