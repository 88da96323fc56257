import Verif.Model.InfoDate
import Verif.Spec.PdfDate
import Verif.Lemmas.Bytes
/- C57: the creation date. -/
namespace Verif.Props
open Info PdfDate

/-- A time the proleptic Gregorian calendar has, of the years 0 to 9999, in a zone less than a day from universal time. -/
structure GoodTime (t : Time) : Prop where
  year : 0 ≤ t.year ∧ t.year < 10000
  month : 1 ≤ t.month ∧ t.month ≤ 12
  day : 1 ≤ t.day ∧ t.day ≤ monthDays t.year.toNat t.month
  hour : t.hour < 24
  minute : t.minute < 60
  second : t.second < 60
  offset : -86400 < t.offset ∧ t.offset < 86400

/-- The instant of a time, in seconds since the start of the year 0 at universal time. -/
def instantOf (t : Time) : Int :=
  86400 * dayNumber t.year.toNat t.month t.day + 3600 * t.hour + 60 * t.minute + t.second - t.offset

private theorem pad_digits {k n : Nat} (hk : 0 < k) (hn : n < 10 ^ k) :
    (padL k (dec n)).length = k ∧ (∀ b ∈ padL k (dec n), isDigit b = true) ∧ decVal (padL k (dec n)) = n := by
  have hl := (dec_length_le_iff hk).2 hn
  refine ⟨by simp [padL]; omega, ?_, by rw [padL, decVal_zeros, decVal_dec]⟩
  intro b hb
  rw [padL, List.mem_append] at hb
  rcases hb with hb | hb
  · rw [(List.mem_replicate.1 hb).2]; rfl
  · exact dec_all_digit n b hb

private theorem append_nat (n w : Nat) : appendInt n w = padL w (dec n) := by
  unfold appendInt
  rw [if_neg (by omega)]
  simp

private theorem two_pad {n : Nat} (hn : n < 100) (r : Bytes) : two (appendInt n 2 ++ r) = some (n, r) := by
  rw [append_nat]
  obtain ⟨h1, h2, h3⟩ := pad_digits (k := 2) (by omega) (by simpa using hn)
  match hl : padL 2 (dec n), h1 with
  | [a, b], _ =>
    rw [hl] at h2 h3
    have e : 10 * (a.toNat - 48) + (b.toNat - 48) = n := by simpa [decVal] using h3
    simp [two, h2 a (by simp), h2 b (by simp), e]

private theorem year_pad {n : Nat} (hn : n < 10000) (r : Bytes) :
    ∃ s, two (appendInt n 4 ++ r) = some (n / 100, s) ∧ two s = some (n % 100, r) := by
  rw [append_nat]
  obtain ⟨h1, h2, h3⟩ := pad_digits (k := 4) (by omega) (by simpa using hn)
  match hl : padL 4 (dec n), h1 with
  | [a, b, c, d], _ =>
    rw [hl] at h2 h3
    have e : 10 * (10 * (10 * (a.toNat - 48) + (b.toNat - 48)) + (c.toNat - 48)) + (d.toNat - 48) = n := by simpa [decVal] using h3
    have bound : ∀ x ∈ [a, b, c, d], x.toNat - 48 < 10 := by
      intro x hx
      have := h2 x hx
      simp [isDigit] at this
      omega
    have hc := bound c (by simp)
    have hd := bound d (by simp)
    have e1 : 10 * (a.toNat - 48) + (b.toNat - 48) = n / 100 := by omega
    have e2 : 10 * (c.toNat - 48) + (d.toNat - 48) = n % 100 := by omega
    refine ⟨c :: d :: r, ?_, ?_⟩
    · simp [two, h2 a (by simp), h2 b (by simp), e1]
    · simp [two, h2 c (by simp), h2 d (by simp), e2]

private theorem zone_reads (s : Int) {h : Nat} (hh : h < 24) : zone s (appendInt h 2 ++ lit "'00'") = some (s * (60 * h)) := by
  have hl : lit "'00'" = [39, 48, 48, 39] := by decide
  unfold zone
  rw [two_pad (by omega), hl]
  have ht : two [48, 48, 39] = some (0, [39]) := by decide
  simp [ht]
  omega

private theorem t_facts (x : Int) : (0 ≤ x → x.tdiv 60 = x / 60 ∧ x.tmod 3600 = x % 3600) ∧
    (x < 0 → x.tdiv 60 = -((-x) / 60) ∧ x.tmod 3600 = -((-x) % 3600)) := by
  constructor
  · intro h
    exact ⟨Int.tdiv_eq_ediv_of_nonneg h, Int.tmod_eq_emod_of_nonneg h⟩
  · intro h
    constructor
    · rw [← Int.tdiv_eq_ediv_of_nonneg (by omega), Int.neg_tdiv, Int.neg_neg]
    · rw [← Int.tmod_eq_emod_of_nonneg (by omega), Int.neg_tmod, Int.neg_neg]

/-- **C57** The creation date read from the file (§7.9.4) has the date and clock given; only the minutes of the time zone are
lost: the instant read is later than the one given by the part of the zone's offset beyond whole hours. -/
theorem creation_date_reads (t : Time) (ht : GoodTime t) :
    ∃ d, parse (lit "D:" ++ infodate t) = some d ∧
      (d.year : Int) = t.year ∧ d.month = t.month ∧ d.day = t.day ∧ d.hour = t.hour ∧ d.minute = t.minute ∧ d.second = t.second ∧
      d.instant = instantOf t + t.offset.tmod 3600 := by
  obtain ⟨y, hy⟩ := Int.eq_ofNat_of_zero_le ht.year.1
  have hy' := ht.year.2
  have ho := ht.offset
  have tf := t_facts t.offset
  have hz : (t.offset.tdiv 60).natAbs / 60 < 24 := by
    rcases (show t.offset < 0 ∨ 0 ≤ t.offset by omega) with h | h
    · have := tf.2 h; omega
    · have := tf.1 h; omega
  obtain ⟨s, y1, y2⟩ := year_pad (n := y) (by omega) (appendInt t.month 2 ++ (appendInt t.day 2 ++ (appendInt t.hour 2 ++ (appendInt t.minute 2 ++
    (appendInt t.second 2 ++ ((if t.offset.tdiv 60 < 0 then [45] else [43]) ++
      (appendInt ((t.offset.tdiv 60).natAbs / 60 : Nat) 2 ++ lit "'00'")))))))
  have hm := ht.month.2
  have hd := ht.day.2
  have hmd : monthDays t.year.toNat t.month ≤ 31 := by unfold monthDays; split <;> (try split) <;> omega
  have hh := ht.hour
  have hmi := ht.minute
  have hs := ht.second
  have hyy : 100 * (y / 100) + y % 100 = y := by omega
  have hv : ∀ z, (Date.valid ⟨y, t.month, t.day, t.hour, t.minute, t.second, z⟩) = true := by
    intro z
    have h1 := ht.month.1
    have h2 := ht.day.1
    rw [hy] at hd
    simp [Date.valid, h1, h2, hm, hh, hmi, hs]
    simpa using hd
  have hp : parse (lit "D:" ++ infodate t) = some ⟨y, t.month, t.day, t.hour, t.minute, t.second,
      (if t.offset.tdiv 60 < 0 then -1 else 1) * (60 * ((t.offset.tdiv 60).natAbs / 60 : Nat))⟩ := by
    unfold parse infodate
    rw [dropPrefix?_eq_some.2 rfl, hy]
    simp only [Int.ofNat_eq_natCast, Option.bind_some, y1, y2, field, two_pad (show t.month < 100 by omega), two_pad (show t.day < 100 by omega),
      two_pad (show t.hour < 100 by omega), two_pad (show t.minute < 100 by omega), two_pad (show t.second < 100 by omega), hyy]
    by_cases hn : t.offset.tdiv 60 < 0
    · simp only [hn, if_true, List.cons_append, List.nil_append, PdfDate.offset, zone_reads (-1) hz, Option.map_some, Option.bind_some, hv]
    · simp only [hn, if_false, List.cons_append, List.nil_append, PdfDate.offset, zone_reads 1 hz, Option.map_some, Option.bind_some, hv, if_true]
  refine ⟨_, hp, by simp [hy], rfl, rfl, rfl, rfl, rfl, ?_⟩
  simp only [Date.instant, instantOf, hy, Int.toNat_natCast, Int.ofNat_eq_natCast]
  have key : 60 * ((if t.offset.tdiv 60 < 0 then (-1 : Int) else 1) * (60 * ((t.offset.tdiv 60).natAbs / 60 : Nat))) =
      t.offset - t.offset.tmod 3600 := by
    rcases (show t.offset < 0 ∨ 0 ≤ t.offset by omega) with h | h
    · have := tf.2 h; split <;> omega
    · have := tf.1 h; split <;> omega
  omega

/-- **C57** In a zone of whole hours the instant read is the one given, to the second. -/
theorem creation_date_instant (t : Time) (ht : GoodTime t) (hz : t.offset % 3600 = 0) :
    ∃ d, parse (lit "D:" ++ infodate t) = some d ∧ d.instant = instantOf t := by
  obtain ⟨d, h1, _, _, _, _, _, _, h2⟩ := creation_date_reads t ht
  refine ⟨d, h1, ?_⟩
  rw [h2]
  have : t.offset.tmod 3600 = 0 := by
    rcases (show t.offset < 0 ∨ 0 ≤ t.offset by omega) with h | h
    · have := (t_facts _).2 h; omega
    · have := (t_facts _).1 h; omega
  omega

/-- **C57** (counterexample) In a zone of half hours (India, +05:30) the instant read is half an hour late. -/
theorem creation_date_fails : ∃ t d, GoodTime t ∧ parse (lit "D:" ++ infodate t) = some d ∧ d.instant = instantOf t + 1800 :=
  ⟨⟨2024, 2, 29, 23, 5, 7, 19800⟩, ⟨2024, 2, 29, 23, 5, 7, 300⟩, ⟨by decide, by decide, by decide, by decide, by decide, by decide, by decide⟩,
    by decide +kernel, by decide +kernel⟩

example : GoodTime ⟨2024, 2, 29, 23, 5, 7, -28800⟩ ∧ infodate ⟨2024, 2, 29, 23, 5, 7, -28800⟩ = lit "20240229230507-08'00'" :=
  ⟨⟨by decide, by decide, by decide, by decide, by decide, by decide, by decide⟩, by decide +kernel⟩

/-- Different times of day or dates are written differently: the date in the file determines date and clock. -/
theorem infodate_injective (t u : Time) (ht : GoodTime t) (hu : GoodTime u) (h : infodate t = infodate u) :
    t.year = u.year ∧ t.month = u.month ∧ t.day = u.day ∧ t.hour = u.hour ∧ t.minute = u.minute ∧ t.second = u.second := by
  obtain ⟨d, h1, a1, a2, a3, a4, a5, a6, _⟩ := creation_date_reads t ht
  obtain ⟨d', h2, b1, b2, b3, b4, b5, b6, _⟩ := creation_date_reads u hu
  rw [h, h2, Option.some.injEq] at h1
  subst h1
  exact ⟨by omega, by omega, by omega, by omega, by omega, by omega⟩

end Verif.Props
