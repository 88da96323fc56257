import Verif.Lemmas.Embed.Accept
import Verif.Spec.FontComplete
import Verif.Props.Embed
/-
When embedding a font succeeds.
-/
namespace Verif.Embed
open Verif.TTF Verif.CmapSpec Verif.FontFile

theorem componentsLoop_total {d : Bytes} {off : Nat} (h : Records d off) :
    ∀ (fuel : Nat) (arr : List Nat), d.length < fuel + off → PlainScales d off → Ok (componentsLoop d fuel off arr) := by
  induction h with
  | @last off fl c h1 h2 h3 =>
    intro fuel arr hf _
    have := U16_in h1
    obtain ⟨k, rfl⟩ : ∃ k, fuel = k + 1 := ⟨fuel - 1, by omega⟩
    simp only [componentsLoop, ok_bind]
    exact ⟨fl, readU_ok.2 h1, c, readU_ok.2 h2, by rw [h3]; simp [ok_pure]⟩
  | @more off fl c h1 h2 h3 h4 ih =>
    intro fuel arr hf hp
    have := U16_in h1
    obtain ⟨k, rfl⟩ : ∃ k, fuel = k + 1 := ⟨fuel - 1, by omega⟩
    simp only [componentsLoop, ok_bind]
    refine ⟨fl, readU_ok.2 h1, c, readU_ok.2 h2, ?_⟩
    rw [if_pos h3, componentArgs_eq (hp off fl (.here off) h1)]
    exact ih _ _ (by omega) (fun off' fl' hr => hp off' fl' (.next h1 h3 hr))

theorem glyphOffset_some {f : Font} {g a : Nat} (h : f.loca[g]? = some a) : glyphOffset f g = .ok (glyfBase f + a) := by
  unfold glyphOffset
  rw [h]
  rfl

theorem addComposite_total {f : Font} {g a b : Nat} (arr : List Nat) (ha : f.loca[g]? = some a) (hb : f.loca[g + 1]? = some b)
    (hp : PlainGlyph f g)
    (h : a ≠ b → ∃ n, U16 f.data (glyfBase f + a) n ∧ (0x8000 ≤ n → Records f.data (glyfBase f + a + 10))) :
    Ok (addComposite f arr g) := by
  unfold addComposite
  simp only [ok_bind]
  refine ⟨_, glyphOffset_some ha, _, glyphOffset_some hb, ?_⟩
  split
  · simp [ok_pure]
  · next hne =>
    obtain ⟨n, hn, hr⟩ := h (fun e => hne (by rw [e]))
    simp only [ok_bind]
    refine ⟨n, readU_ok.2 hn, ?_⟩
    split
    · simp [ok_pure]
    · next hge => exact componentsLoop_total (hr (by omega)) _ _ (by omega) (hp a n ha hn (by omega))

theorem closureLoop_total {f : Font} : ∀ (gs arr : List Nat), (∀ g ∈ gs, ∀ arr, Ok (addComposite f arr g)) →
    Ok (closureLoop f gs arr) := by
  intro gs
  induction gs with
  | nil => intro arr _; simp [closureLoop, Ok]
  | cons g gs ih =>
    intro arr h
    simp only [closureLoop, ok_bind]
    obtain ⟨a, ha⟩ := h g (by simp) arr
    exact ⟨a, ha, ih a (fun x hx => h x (by simp [hx]))⟩

/-- The copy loop does not fail, and the bytes copied are as many as the sizes added up. -/
theorem glyfLoop_total (f : Font) : ∀ (n idx : Nat) (arr : List Nat) (old : Option Nat) (acc : Bytes),
    arr.Pairwise (· < ·) → (∀ g ∈ arr, idx ≤ g ∧ g < idx + n) → (∀ o, old = some o → o < idx) →
    (∀ g ∈ arr, ∃ o, glyphData f g = .ok o ∧ glyphSize f g = .ok (o.length : Int)) →
    ∃ (b : Bytes) (l : List Nat) (t : Nat), glyfLoop f idx n arr old acc = .ok (b, l) ∧ totalSize f arr = .ok (t : Int) ∧ b.length = acc.length + t := by
  intro n
  induction n with
  | zero =>
    intro idx arr old acc _ hge _ _
    cases arr with
    | nil => exact ⟨acc, [acc.length], 0, rfl, rfl, rfl⟩
    | cons g gs => have := hge g (by simp); omega
  | succ n ih =>
    intro idx arr old acc hs hge hold hd
    cases arr with
    | nil =>
      obtain ⟨b, l, t, h1, h2, h3⟩ := ih (idx + 1) [] old acc .nil (by simp) (fun o ho => by have := hold o ho; omega) (by simp)
      exact ⟨b, acc.length :: l, t, by simp only [glyfLoop, h1]; rfl, h2, h3⟩
    | cons g gs =>
      have hs' := hs
      rw [List.pairwise_cons] at hs
      by_cases hg : g = idx
      · subst hg
        obtain ⟨o, ho, hz⟩ := hd g (by simp)
        obtain ⟨b, l, t, h1, h2, h3⟩ := ih (g + 1) gs (some g) (acc ++ o) hs.2
          (fun x hx => by have := hs.1 x hx; have := (hge x (by simp [hx])).2; omega) (by rintro o ⟨⟩; omega)
          (fun x hx => hd x (by simp [hx]))
        refine ⟨b, acc.length :: l, o.length + t, ?_, ?_, ?_⟩
        · simp only [glyfLoop, true_or, if_true, ho]
          simp only [bind, Except.bind, h1]; rfl
        · simp only [totalSize, hz, h2]; simp [bind, Except.bind, pure, Except.pure]
        · rw [h3, List.length_append]; omega
      · have hold' : old ≠ some g := by
          intro e
          have h1 := hold g e
          have h2 := (hge g (by simp)).1
          omega
        have hlt : idx < g := by have := (hge g (by simp)).1; omega
        obtain ⟨b, l, t, h1, h2, h3⟩ := ih (idx + 1) (g :: gs) old acc hs'
          (fun x hx => by
            have h2 := (hge x hx).2
            rcases List.mem_cons.1 hx with rfl | hx
            · omega
            · have := hs.1 x hx; omega)
          (fun o ho => by have := hold o ho; omega) hd
        refine ⟨b, acc.length :: l, t, ?_, h2, h3⟩
        simp only [glyfLoop, hg, hold', or_self, if_false, h1]; rfl

theorem makeGlyfLoca_total {f : Font} {vals arr : List Nat} (hc : closure f vals = .ok arr) (hlt : ∀ g ∈ arr, g < f.nGlyphs)
    (hd : ∀ g ∈ arr, ∃ o, glyphData f g = .ok o ∧ glyphSize f g = .ok (o.length : Int)) :
    ∃ glyf loca, makeGlyfLoca f vals = .ok (glyf, loca) := by
  obtain ⟨hs1, hs2⟩ := distinct_sort arr
  obtain ⟨b, l, t, h1, h2, h3⟩ := glyfLoop_total f f.nGlyphs 0 (distinct none (sortNats arr)) none [] hs1
    (fun g hg => by have := hlt g ((hs2 g).1 hg); omega) (by simp) (fun g hg => hd g ((hs2 g).1 hg))
  refine ⟨b ++ List.replicate ((t + 3) / 4 * 4 - b.length) 0, l, ?_⟩
  unfold makeGlyfLoca
  simp only [bind_ok]
  refine ⟨arr, hc, (t : Int), h2, ?_⟩
  rw [if_neg (by omega)]
  simp only [bind_ok]
  refine ⟨(b, l), h1, ?_⟩
  simp only [List.length_nil, Nat.zero_add] at h3
  rw [if_neg (by simp only [Int.toNat_natCast]; omega)]
  simp only [Int.toNat_natCast, pure_ok]

theorem byteSums_total : ∀ (d : Bytes) (s : Nat × Nat × Nat × Nat), d.length % 4 = 0 → Ok (byteSums d s)
  | [], s, _ => by simp [byteSums, Ok]
  | [_], _, h => by simp at h
  | [_, _], _, h => by simp at h
  | [_, _, _], _, h => by simp at h
  | a :: b :: c :: d :: rest, (s3, s2, s1, s0), h => by
    rw [byteSums]
    exact byteSums_total rest _ (by simp only [List.length_cons] at h; omega)

theorem checkSum_total {d : Bytes} (h : d.length % 4 = 0) : ∃ c, checkSum d = .ok c := by
  obtain ⟨s, hs⟩ := byteSums_total d (0, 0, 0, 0) h
  unfold checkSum
  rw [hs]
  exact ⟨_, rfl⟩

theorem slice_total {d : Bytes} {o n : Nat} (h : o + n ≤ d.length) : slice d o n = .ok ((d.drop o).take n) := by
  unfold slice; rw [if_pos h]

theorem tableData_total {d : Bytes} {f : Font} {glyf : Bytes} {loca : List Nat} {tag : Bytes} (hP : Parsed d f)
    (hg4 : glyf.length % 4 = 0)
    (h : tag ≠ lit "glyf" → tag ≠ lit "loca" → ∀ o l, HasTable d tag o l → o + pad4 l ≤ d.length) :
    Ok (tableData f glyf loca tag) := by
  unfold tableData
  split
  · obtain ⟨c, hc⟩ := checkSum_total hg4
    simp only [ok_bind]
    exact ⟨c, hc, _, slice_total (by omega), by simp [ok_pure]⟩
  · split
    · obtain ⟨c, hc⟩ := checkSum_total (d := locaBytes f.shortIndex loca) (by rw [locaBytes_len, pad4]; omega)
      simp only [ok_bind]
      exact ⟨c, hc, by simp [ok_pure]⟩
    · next h1 h2 =>
      simp only [ok_bind]
      refine ⟨_, slice_total ?_, by simp [ok_pure]⟩
      rw [hP.data]
      cases ht : tableOf f.tables tag with
      | none => simp [Table.padded]
      | some t => exact h h1 h2 _ _ (table_of ((hP.table _ _).1 ht))

theorem tablesLoop_total {f : Font} {glyf : Bytes} {loca : List Nat} : ∀ (ts : List Bytes) (idx pos : Nat) (buff : Buff),
    (∀ t ∈ ts, Ok (tableData f glyf loca t)) → Ok (tablesLoop f glyf loca idx pos ts buff) := by
  intro ts
  induction ts with
  | nil => intro idx pos buff _; simp [tablesLoop, Ok]
  | cons t ts ih =>
    intro idx pos buff h
    obtain ⟨⟨d, c, len⟩, ht⟩ := h t (by simp)
    simp only [tablesLoop, ok_bind]
    exact ⟨_, ht, ih _ _ _ (fun x hx => h x (by simp [hx]))⟩

end Verif.Embed
