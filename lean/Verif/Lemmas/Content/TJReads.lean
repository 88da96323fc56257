import Verif.Lemmas.Content.ItemReads
/- The array of TJ. -/
namespace Verif.Content
open ContentReader TextRun
open Paint (Op Colour PaintKind)

theorem isNum_decInt (n : Int) : IsNum (decInt n) (n : ℚ) := by
  cases n with
  | ofNat k =>
    have h := isNum_signed (neg := False) (b := (dec k).head (dec_ne_nil k)) (r := (dec k).tail) (v := k)
      (dec_all_digit k _ (List.head_mem _)) (by
        rw [List.cons_head_tail]; exact fun x hx => digit_regular (dec_all_digit k x hx)) (by
        rw [List.cons_head_tail]; exact magnitude_int k)
    simpa [decInt] using h
  | negSucc k =>
    have h := isNum_signed (neg := True) (b := (dec (k + 1)).head (dec_ne_nil _)) (r := (dec (k + 1)).tail)
      (v := ((k + 1 : Nat) : ℚ)) (dec_all_digit _ _ (List.head_mem _)) (by
        rw [List.cons_head_tail]; exact fun x hx => digit_regular (dec_all_digit _ x hx)) (by
        rw [List.cons_head_tail]; exact magnitude_int _)
    have e : ((Int.negSucc k : Int) : ℚ) = -((k + 1 : Nat) : ℚ) := by rw [Int.cast_negSucc]
    rw [e]
    simpa [decInt] using h

theorem hex4_hex {n : Nat} (h : n < 65536) : ∀ b ∈ hex4 n, b ≠ 62 ∧ (hexVal b).isSome = true := by
  intro b hb
  refine ⟨(hex4_ne h b hb).1, ?_⟩
  unfold hex4 at hb
  rw [padL_hexUp h] at hb
  simp only [List.mem_cons, List.not_mem_nil, or_false] at hb
  rcases hb with rfl | rfl | rfl | rfl <;> rw [hexVal_hexDigit (by omega)] <;> rfl

theorem feed_hex : ∀ (w pre : Bytes), (∀ b ∈ w, b ≠ 62 ∧ (hexVal b).isSome = true) →
    feedAll (.hex pre) w = some ([], .hex (pre ++ w))
  | [], pre, _ => by simp [feedAll]
  | b :: w, pre, h => by
    simp only [feedAll, feed, if_neg (h b (by simp)).1, if_pos (h b (by simp)).2, Option.bind_some]
    rw [feed_hex w (pre ++ [b]) (fun x hx => h x (by simp [hx]))]
    simp

theorem array_reads : ∀ (l : List TJ) (gs : List Nat), (∀ g ∈ gs, g < 65536) → Small l →
    ∃ ts els, feedAll (.hex (gs.flatMap hex4)) (l.flatMap tjElem ++ [62]) = some (ts, .gap) ∧
      (∀ a acc, parseAll ⟨a, some acc⟩ ts = some ([], ⟨a, some (acc ++ els)⟩)) ∧
      shown els = some (gs.map TextShow.Item.code ++ l.map tjItem)
  | [], gs, hgs, _ => by
    refine ⟨[.hex (gs.flatMap hex4)], [.str (gs.flatMap be2)], ?_, fun a acc => ?_, ?_⟩
    · simp [feedAll, feed]
    · simp [parseAll, parse, hexDecode_flat gs hgs]
    · simp [shown, TextShow.codes, units_flat gs hgs]
  | .glyph g :: l, gs, hgs, hs => by
    have hg : g < 65536 := hs g (by simp)
    obtain ⟨ts, els, h1, h2, h3⟩ := array_reads l (gs ++ [g]) (by
      intro y hy
      simp only [List.mem_append, List.mem_singleton] at hy
      rcases hy with hy | rfl
      · exact hgs y hy
      · exact hg) (fun x hx => hs x (by simp [hx]))
    refine ⟨ts, els, ?_, h2, by simpa [tjItem] using h3⟩
    have hf : feedAll (.hex (gs.flatMap hex4)) (hex4 g) = some ([], .hex ((gs ++ [g]).flatMap hex4)) := by
      rw [feed_hex (hex4 g) _ (hex4_hex hg)]; simp
    rw [List.flatMap_cons, show tjElem (.glyph g) = hex4 g from rfl, List.append_assoc, feedAll_append, hf]
    simp only [Option.bind_some]
    rw [h1]
    simp
  | .adj n :: l, gs, hgs, hs => by
    obtain ⟨ts, els, h1, h2, h3⟩ := array_reads l [] (by simp) (fun x hx => hs x (by simp [hx]))
    have hn := isNum_decInt n
    refine ⟨.hex (gs.flatMap hex4) :: .word (decInt n) :: ts, .str (gs.flatMap be2) :: .num n :: els, ?_, fun a acc => ?_, ?_⟩
    · have e1 : feedAll (.hex (gs.flatMap hex4)) [62] = some ([.hex (gs.flatMap hex4)], .gap) := by simp [feedAll, feed]
      have e2 : feedAll .gap (decInt n ++ [60]) = some ([.word (decInt n)], .hex []) := by
        rw [feedAll_append, feed_gap hn.1 hn.2.1]
        simp [feedAll, feed, show isRegular 60 = false by decide, boundary, isWhite]
      have e : (TJ.adj n :: l).flatMap tjElem ++ [62] = [62] ++ ((decInt n ++ [60]) ++ (l.flatMap tjElem ++ [62])) := by
        simp [tjElem]
      rw [e, feedAll_append, e1]
      simp only [Option.bind_some]
      rw [feedAll_append, e2]
      simp only [Option.bind_some]
      rw [List.flatMap_nil] at h1
      rw [h1]
      simp
    · simp only [parseAll, parse, hexDecode_flat gs hgs, Option.map_some, Option.bind_some, hn.2.2]
      rw [h2]
      simp
    · simp only [shown, TextShow.codes, units_flat gs hgs, Option.map_some, Option.bind_some]
      rw [if_pos (by simp)]
      rw [h3]
      simp [tjItem]

theorem good_TJ {l : List TJ} (h : Small l) : Good (tjBytes l) [.TJ (l.map tjItem)] := by
  obtain ⟨ts, els, h1, h2, h3⟩ := array_reads l [] (by simp) h
  have a : Args (([91, 60] ++ (l.flatMap tjElem ++ [62])) ++ [93, 32]) [.arr els] := by
    refine ⟨.opening :: ts ++ [.closing], ?_, fun acc => ?_⟩
    · have e1 : feedAll .gap [91, 60] = some ([.opening], .hex []) := by decide
      have e2 : feedAll .gap [93, 32] = some ([.closing], .gap) := by decide
      rw [feedAll_append, feedAll_append, e1]
      simp only [Option.bind_some]
      rw [List.flatMap_nil] at h1
      rw [h1]
      simp [e2]
    · rw [List.cons_append]
      simp only [parseAll, parse, Option.isSome_none, Bool.false_eq_true, if_false, Option.bind_some]
      rw [parseAll_append, h2]
      simp [parseAll, parse]
  have := Reads.op (w := [84, 74]) (b := 10) (o := [.TJ (l.map tjItem)]) a (by opw) (by opw) (by opw)
    (by simp [operator, h3]) rfl
  exact .exact (by simpa [tjBytes] using this) (by simp [NearOp])

end Verif.Content
