import Verif.Lemmas.Embed.Metrics
import Verif.Props.Embed
import Verif.Spec.FontMetrics
import Mathlib.Tactic.Linarith
import Mathlib.Tactic.FieldSimp
import Mathlib.Algebra.Order.Floor.Ring
/- What the parser says about metrics and kerning, in terms of the font file. -/
namespace Verif.Typeset
open CmapSpec FontFile TTF Embed

theorem i16_ok {d : Bytes} {p : Nat} {v : Int} : i16 d p = .ok v ↔ I16 d p v := by
  unfold i16 I16
  simp only [bind_ok]
  constructor
  · rintro ⟨u, hu, h⟩
    refine ⟨u, u16_ok.1 hu, ?_⟩
    split at h
    · rw [pure_ok] at h; subst h; rw [if_neg (by omega)]
    · rw [pure_ok] at h; subst h; rw [if_pos (by omega)]
  · rintro ⟨x, hx, rfl⟩
    refine ⟨x, u16_ok.2 hx, ?_⟩
    by_cases h : x < 32768
    · rw [if_neg (by omega), if_pos h]; rfl
    · rw [if_pos (by omega), if_neg h]; rfl

theorem I16_fun {d : Bytes} {p : Nat} {v w : Int} (h : I16 d p v) (h' : I16 d p w) : v = w := by
  have a := i16_ok.2 h
  rw [i16_ok.2 h'] at a
  cases a; rfl

/-- The numbers of the tables. -/
structure ParsedInfo (d : Bytes) (i : Info) : Prop where
  em : UnitsPerEm d i.font.unitsPerEm
  asc : Metric d "hhea" 4 i.font.ascender
  desc : Metric d "hhea" 6 i.font.descender
  box : Metric d "head" 36 i.box.1 ∧ Metric d "head" 38 i.box.2.1 ∧ Metric d "head" 40 i.box.2.2.1 ∧ Metric d "head" 42 i.box.2.2.2
  version : Unsigned d "OS/2" 0 i.os2.version
  typoAsc : Metric d "OS/2" 68 i.os2.typoAscender
  typoDesc : Metric d "OS/2" 70 i.os2.typoDescender
  winAsc : Unsigned d "OS/2" 74 i.os2.winAscent
  winDesc : Unsigned d "OS/2" 76 i.os2.winDescent
  cap : if 2 ≤ i.os2.version then Metric d "OS/2" 88 i.os2.capHeight else Metric d "hhea" 4 i.os2.capHeight
  xHeight : 2 ≤ i.os2.version → Metric d "OS/2" 86 i.os2.xHeight
  angle : Metric d "post" 4 i.italicAngle
  pos : Metric d "post" 8 i.underlinePosition
  thick : Metric d "post" 10 i.underlineThickness

theorem hhea_ok {d : Bytes} {f : Font} (hd : DistinctTags d) (h : parseFont d = .ok f) : Metric d "hhea" 4 f.ascender ∧ Metric d "hhea" 6 f.descender := by
  unfold parseFont at h
  split at h
  · simp only [bind_ok, throw_ne, false_and, exists_false] at h
  simp only [bind_ok, pure_ok] at h
  obtain ⟨n, hn, ts, hts, ⟨upem, fmt⟩, hhead, ⟨asc, desc, nHM⟩, hhhea, nG, hmaxp, ws, hws, cm, hcm, loca, hloca, rfl⟩ := h
  have htab := tableOf_iff (u16_ok.1 hn) hd hts
  unfold parseHhea at hhhea
  simp only [bind_ok, pure_ok, Prod.mk.injEq] at hhhea
  obtain ⟨p, hp, a, ha, b, hb, k, hk, rfl, rfl, rfl⟩ := hhhea
  obtain ⟨t, ht, rfl⟩ := seek_ok hp
  have := table_of ((htab _ _).1 ht)
  exact ⟨⟨_, _, this, i16_ok.1 ha⟩, ⟨_, _, this, i16_ok.1 hb⟩⟩

theorem load_ok {d : Bytes} {k : Bool} {i : Info} (hd : DistinctTags d) (h : load d k = .ok i) : ParsedInfo d i := by
  have hf := load_font h
  have P := parseFont_ok hd hf
  have table : ∀ (tag : String) (p : Nat), seek i.font.tables tag = .ok p → ∃ l, HasTable d (lit tag) p l := by
    intro tag p hp
    obtain ⟨t, ht, rfl⟩ := seek_ok hp
    exact ⟨_, table_of ((P.table _ _).1 ht)⟩
  obtain ⟨h1, h2⟩ := hhea_ok hd hf
  unfold load at h
  simp only [bind_ok] at h
  obtain ⟨f, hf', box, hbox, name, _, os2, hos, ⟨a, b, c⟩, hpost, h⟩ := h
  have hi : ∃ kern, i = ⟨f, box, name, os2, a, b, c, kern⟩ := by
    cases k
    · simp only [bind_ok, pure_ok, Bool.false_eq_true, if_false] at h
      obtain ⟨x, _, rfl⟩ := h; exact ⟨_, rfl⟩
    · simp only [bind_ok, pure_ok, if_true] at h
      obtain ⟨x, _, rfl⟩ := h; exact ⟨_, rfl⟩
  obtain ⟨kern, rfl⟩ := hi
  simp only at table h1 h2 hf P ⊢
  unfold parseBox at hbox
  simp only [bind_ok, pure_ok] at hbox
  obtain ⟨pb, hpb, x0, b0, y0, b1, x1, b2, y1, b3, rfl⟩ := hbox
  obtain ⟨lb, tb⟩ := table _ _ hpb
  unfold parsePost at hpost
  simp only [bind_ok, pure_ok, Prod.mk.injEq] at hpost
  obtain ⟨pp, hpp, v0, c0, v1, c1, v2, c2, _, _, rfl, rfl, rfl⟩ := hpost
  obtain ⟨lp, tp⟩ := table _ _ hpp
  unfold parseOS2 at hos
  simp only [bind_ok] at hos
  obtain ⟨po, hpo, ver, d0, _, _, _, _, ta, d1, td, d2, _, _, wa, d3, wd, d4, hos⟩ := hos
  obtain ⟨lo, tt⟩ := table _ _ hpo
  have o1 : Metric d "OS/2" 68 ta := ⟨_, _, tt, i16_ok.1 d1⟩
  have o2 : Metric d "OS/2" 70 td := ⟨_, _, tt, i16_ok.1 d2⟩
  have o3 : Unsigned d "OS/2" 74 wa := ⟨_, _, tt, u16_ok.1 d3⟩
  have o4 : Unsigned d "OS/2" 76 wd := ⟨_, _, tt, u16_ok.1 d4⟩
  have o0 : Unsigned d "OS/2" 0 ver := ⟨_, _, tt, u16_ok.1 d0⟩
  have rest : ∀ o : OS2, o.version = ver → o.typoAscender = ta → o.typoDescender = td → o.winAscent = wa → o.winDescent = wd →
      (if 2 ≤ ver then Metric d "OS/2" 88 o.capHeight else Metric d "hhea" 4 o.capHeight) → (2 ≤ ver → Metric d "OS/2" 86 o.xHeight) →
      ParsedInfo d ⟨f, (x0, y0, x1, y1), name, o, v0, v1, v2, kern⟩ := by
    intro o e1 e2 e3 e4 e5 e6 e7
    exact ⟨(parseWidths_ok hd hf).em, h1, h2, ⟨⟨_, _, tb, i16_ok.1 b0⟩, ⟨_, _, tb, i16_ok.1 b1⟩, ⟨_, _, tb, i16_ok.1 b2⟩, ⟨_, _, tb, i16_ok.1 b3⟩⟩,
      by simp only [e1]; exact o0, by simp only [e2]; exact o1, by simp only [e3]; exact o2, by simp only [e4]; exact o3, by simp only [e5]; exact o4,
      by simp only [e1]; exact e6, by simp only [e1]; exact e7, ⟨_, _, tp, i16_ok.1 c0⟩, ⟨_, _, tp, i16_ok.1 c1⟩, ⟨_, _, tp, i16_ok.1 c2⟩⟩
  split at hos
  · next hv =>
    simp only [bind_ok, pure_ok] at hos
    obtain ⟨xh, d5, ch, d6, rfl⟩ := hos
    exact rest _ rfl rfl rfl rfl rfl (by rw [if_pos hv]; exact ⟨_, _, tt, i16_ok.1 d6⟩) (fun _ => ⟨_, _, tt, i16_ok.1 d5⟩)
  · next hv =>
    rw [pure_ok] at hos
    subst hos
    exact rest _ rfl rfl rfl rfl rfl (by rw [if_neg hv]; exact h1) (fun h => absurd h hv)

/-! ### Kerning -/

theorem kernPairs_ok {d : Bytes} : ∀ {k p : Nat} {acc l : List ((Nat × Nat) × Int)}, kernPairs d p k acc = .ok l →
    (∀ x, x ∈ l ↔ x ∈ acc ∨ ∃ i < k, U16 d (p + 6 * i) x.1.1 ∧ U16 d (p + 6 * i + 2) x.1.2 ∧ I16 d (p + 6 * i + 4) x.2)
  | 0, p, acc, l, h => by
    simp only [kernPairs, Except.ok.injEq] at h
    subst h; simp
  | k + 1, p, acc, l, h => by
    simp only [kernPairs, bind_ok] at h
    obtain ⟨a, ha, b, hb, v, hv, h⟩ := h
    have ih := kernPairs_ok h
    have ha := u16_ok.1 ha
    have hb := u16_ok.1 hb
    have hv := i16_ok.1 hv
    intro x
    rw [ih x, List.mem_cons]
    constructor
    · rintro ((rfl | h) | ⟨i, hi, h⟩)
      · exact .inr ⟨0, by omega, ha, hb, hv⟩
      · exact .inl h
      · refine .inr ⟨i + 1, by omega, ?_⟩
        rw [show p + 6 * (i + 1) = p + 6 + 6 * i by omega]
        exact h
    · rintro (h | ⟨i, hi, h1, h2, h3⟩)
      · exact .inl (.inr h)
      · cases i with
        | zero =>
          have e1 := U16_fun ha h1
          have e2 := U16_fun hb h2
          have e3 := I16_fun hv h3
          exact .inl (.inl (by ext <;> simp [e1, e2, e3]))
        | succ i =>
          refine .inr ⟨i, by omega, ?_⟩
          rw [show p + 6 + 6 * i = p + 6 * (i + 1) by omega]
          exact ⟨h1, h2, h3⟩

theorem kern_value {d : Bytes} {i : Info} (hd : DistinctTags d) (hk : GoodKern d) (h : load d true = .ok i) (l r : Nat) :
    Kerning d l r (i.kernValue l r) := by
  have P := parseFont_ok hd (load_font h)
  unfold load at h
  simp only [bind_ok, if_true] at h
  obtain ⟨f, hf', box, hbox, name, _, os2, hos, ⟨a, b, c⟩, hpost, kern, hkern, h⟩ := h
  rw [pure_ok] at h
  subst h
  simp only at P
  unfold parseKern at hkern
  have fun' : ∀ k k', OneKern d k → OneKern d k' → k = k' := fun k k' ⟨_, a, _⟩ ⟨_, b, _⟩ => (HasTable_fun hd a b).1
  split at hkern
  · next ht =>
    simp only [Except.ok.injEq] at hkern
    subst hkern
    refine .inr ⟨?_, rfl⟩
    rintro k i w ⟨kl, hT, -⟩ -
    obtain ⟨s, hs⟩ := entry_of_table hT
    have := (P.table (lit "kern") ⟨s, k, kl⟩).2 hs
    rw [ht] at this; cases this
  · next t ht =>
    simp only [bind_ok, pure_ok] at hkern
    obtain ⟨_, _, n, hn, lst, hlst, rfl⟩ := hkern
    have hT := table_of ((P.table _ _).1 ht)
    have h1 := hk.one _ _ hT
    have hn1 : n = 1 := by
      obtain ⟨kl, -, hu⟩ := h1
      exact U16_fun (u16_ok.1 hn) hu
    subst hn1
    simp only [kernTables, bind_ok] at hlst
    obtain ⟨cov, _, hlst⟩ := hlst
    split at hlst
    · simp only [bind_ok, throw_ne, false_and, exists_false] at hlst
    simp only [bind_ok, pure_ok] at hlst
    obtain ⟨m, hm, ps, hps, hlst⟩ := hlst
    simp only [Except.ok.injEq] at hlst
    subst hlst
    have hall := kernPairs_ok hps
    have hm := u16_ok.1 hm
    have entry : ∀ (l r : Nat) (v : Int), ((l, r), v) ∈ ps ↔ ∃ i, KernEntry d t.offset i l r v := by
      intro l r v
      rw [hall]
      simp only [List.not_mem_nil, false_or]
      rw [show t.offset + 4 + 14 = t.offset + 18 by omega]
      constructor
      · rintro ⟨i, hi, h⟩
        exact ⟨i, m, by rwa [show t.offset + 10 = t.offset + 4 + 6 by omega], hi, h⟩
      · rintro ⟨i, m', hm', hi, h⟩
        rw [show t.offset + 10 = t.offset + 4 + 6 by omega] at hm'
        obtain rfl := U16_fun hm hm'
        exact ⟨i, hi, h⟩
    simp only [Info.kernValue]
    cases hfind : ps.find? (fun e => e.1 == (l, r)) with
    | none =>
      refine .inr ⟨?_, rfl⟩
      intro k i w hk1 hke
      obtain rfl := fun' _ _ hk1 h1
      have := (entry l r w).2 ⟨i, hke⟩
      have hno := List.find?_eq_none.1 hfind _ this
      simp at hno
    | some x =>
      have hx := List.find?_some hfind
      have hxm := List.mem_of_find?_eq_some hfind
      obtain ⟨⟨l', r'⟩, v⟩ := x
      simp only [beq_iff_eq, Prod.mk.injEq] at hx
      obtain ⟨rfl, rfl⟩ := hx
      obtain ⟨i, hi⟩ := (entry _ _ _).1 hxm
      exact .inl ⟨t.offset, i, h1, hi⟩

/-! ### Conversions -/

/-- Kerning and spacing are converted to thousandths toward zero. -/
theorem toPdfUnit_eq (n : Int) {u : Nat} (hu : u ≠ 0) : TextRun.toPdfUnit n u = (1000 * n).tdiv u := by
  have hu' : (u : Int) ≠ 0 := by omega
  unfold TextRun.toPdfUnit
  split
  · next hn =>
    have hz : (if 1000 * n.tmod u ≠ 0 then (n.tmod u).tdiv (1000 * n.tmod u) else 0) = 0 := by
      split
      · next h => 
        have hne : n.tmod u ≠ 0 := fun e => h (by rw [e]; rfl)
        have hab : ((n.tmod u).tdiv (1000 * n.tmod u)).natAbs = 0 := by
          rw [Int.natAbs_tdiv]
          show (n.tmod u).natAbs / (1000 * n.tmod u).natAbs = 0
          rw [Nat.div_eq_zero_iff]
          right; omega
        omega
      · rfl
    simp only [hz, Int.sub_zero]
    rw [show (-1000) * n = -(1000 * n) by omega, Int.neg_tdiv]
    exact Int.neg_neg _
  · next hn =>
    obtain ⟨m, rfl⟩ := Int.eq_ofNat_of_zero_le (show 0 ≤ n by omega)
    have e1 : (Int.ofNat m).tdiv u = ((m / u : Nat) : Int) := rfl
    have e2 : (Int.ofNat m).tmod u = ((m % u : Nat) : Int) := rfl
    have e3 : ∀ a : Nat, ((a : Int) * 1000).tdiv u = ((a * 1000 / u : Nat) : Int) := fun a => rfl
    have e4 : (1000 * (m : Int)).tdiv u = ((1000 * m / u : Nat) : Int) := rfl
    have key : m / u * 1000 + m % u * 1000 / u = 1000 * m / u := by
      have h := Nat.div_add_mod m u
      have : 1000 * m = m % u * 1000 + u * (m / u * 1000) := by
        calc 1000 * m = 1000 * (u * (m / u) + m % u) := by rw [h]
          _ = _ := by ring
      rw [this, Nat.add_mul_div_left _ _ (by omega)]
      omega
    show (Int.ofNat m).tdiv u * 1000 + ((Int.ofNat m).tmod u * 1000).tdiv u = (1000 * (m : Int)).tdiv u
    rw [e1, e2, e3, e4, ← key]
    push_cast; rfl

theorem toward0_near (q : ℚ) : if q < 0 then (q ≤ toward0 q ∧ (toward0 q : ℚ) < q + 1) else ((toward0 q : ℚ) ≤ q ∧ q < toward0 q + 1) := by
  unfold toward0
  split
  · have h1 := Int.floor_le (-q)
    have h2 := Int.lt_floor_add_one (-q)
    constructor <;> push_cast <;> linarith
  · exact ⟨Int.floor_le q, Int.lt_floor_add_one q⟩

theorem round_near (q : ℚ) : |q - TTF.round q| ≤ 1 / 2 := by
  unfold TTF.round
  rw [abs_le]
  split
  · next h =>
    have := toward0_near (q - 1 / 2)
    rw [if_pos (by linarith)] at this
    constructor <;> linarith [this.1, this.2]
  · next h =>
    have := toward0_near (q + 1 / 2)
    rw [if_neg (by linarith)] at this
    constructor <;> linarith [this.1, this.2]

theorem toPdf_rounded (i : Info) (v : Int) : Rounded i.font.unitsPerEm v (i.toPdf v) := by
  unfold Rounded Info.toPdf
  exact round_near _

end Verif.Typeset
