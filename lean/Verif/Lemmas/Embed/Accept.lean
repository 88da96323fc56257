import Verif.Lemmas.Embed.Info
import Verif.Spec.FontAccept
/-
When the parser of font files succeeds.
-/
namespace Verif.Embed
open Verif.TTF Verif.CmapSpec Verif.FontFile Verif.Typeset

/-- The parser returned something. -/
def Ok {α : Type} (r : Res α) : Prop := ∃ a, r = .ok a

theorem ok_bind {α β : Type} {x : Res α} {f : α → Res β} : Ok (x >>= f) ↔ ∃ a, x = .ok a ∧ Ok (f a) := by
  unfold Ok
  simp only [bind_ok]
  grind

theorem ok_pure {α : Type} {a : α} : Ok (pure a : Res α) ↔ True := by simp [Ok, pure_ok]
theorem ok_ok {α : Type} {a : α} : Ok (.ok a : Res α) ↔ True := by simp [Ok]
theorem ok_throw {α : Type} {e : Fault} : Ok (throw e : Res α) ↔ False := by simp [Ok, throw_ne]
theorem ok_error {α : Type} {e : Fault} : Ok (.error e : Res α) ↔ False := by simp [Ok]

theorem U16_exists {d : Bytes} {p : Nat} : (∃ x, U16 d p x) ↔ p + 2 ≤ d.length := by
  constructor
  · rintro ⟨x, a, b, ⟨a', ha, rfl⟩, ⟨b', hb, rfl⟩, rfl⟩
    have := (List.getElem?_eq_some_iff.1 hb).1
    omega
  · intro h
    exact ⟨_, _, _, ⟨d[p]'(by omega), List.getElem?_eq_getElem _, rfl⟩, ⟨d[p + 1]'(by omega), List.getElem?_eq_getElem _, rfl⟩, rfl⟩

theorem U32_exists {d : Bytes} {p : Nat} : (∃ x, U32 d p x) ↔ p + 4 ≤ d.length := by
  constructor
  · rintro ⟨x, a, b, ha, hb, rfl⟩
    have := U16_exists.1 ⟨_, hb⟩
    omega
  · intro h
    obtain ⟨a, ha⟩ := (U16_exists (d := d) (p := p)).2 (by omega)
    obtain ⟨b, hb⟩ := (U16_exists (d := d) (p := p + 2)).2 (by omega)
    exact ⟨_, _, _, ha, hb, rfl⟩

theorem U16_in {d : Bytes} {p x : Nat} (h : U16 d p x) : p + 2 ≤ d.length := U16_exists.1 ⟨_, h⟩
theorem U32_in {d : Bytes} {p x : Nat} (h : U32 d p x) : p + 4 ≤ d.length := U32_exists.1 ⟨_, h⟩

theorem ok_u16 {d : Bytes} {p : Nat} : Ok (u16 d p) ↔ p + 2 ≤ d.length := by
  unfold Ok; simp only [u16_ok]; exact U16_exists

theorem ok_u32 {d : Bytes} {p : Nat} : Ok (u32 d p) ↔ p + 4 ≤ d.length := by
  unfold Ok; simp only [u32_ok]; exact U32_exists

theorem ok_i16 {d : Bytes} {p : Nat} : Ok (i16 d p) ↔ p + 2 ≤ d.length := by
  rw [← U16_exists]
  unfold Ok; simp only [i16_ok, I16]
  constructor
  · rintro ⟨v, x, h, -⟩; exact ⟨x, h⟩
  · rintro ⟨x, h⟩; exact ⟨_, x, h, rfl⟩

theorem ok_throw_bind {α β : Type} {e : Fault} {f : α → Res β} : Ok ((throw e : Res α) >>= f) ↔ False := by
  rw [ok_bind]; simp [throw_ne]

/-- A value that is read and not used. -/
theorem ok_skip {α β : Type} {x : Res α} {y : Res β} : Ok (x >>= fun _ => y) ↔ Ok x ∧ Ok y := by
  rw [ok_bind]; unfold Ok; grind

theorem ok_map {α β : Type} {x : Res α} {f : α → β} : Ok (x >>= fun a => pure (f a)) ↔ Ok x := by
  rw [ok_bind]; simp only [ok_pure, and_true]; rfl

theorem ok_bind' {α β : Type} {x : Res α} {f : α → Res β} (P : Prop) (h : ∀ a, x = .ok a → (Ok (f a) ↔ P)) : Ok (x >>= f) ↔ Ok x ∧ P := by
  rw [ok_bind]
  constructor
  · rintro ⟨a, e, ha⟩; exact ⟨⟨a, e⟩, (h a e).1 ha⟩
  · rintro ⟨⟨a, e⟩, hp⟩; exact ⟨a, e, (h a e).2 hp⟩

theorem ok_u16s {d : Bytes} : ∀ (k p : Nat), Ok (u16s d p k) ↔ Inside d p (2 * k) := by
  intro k
  induction k with
  | zero => intro p; simp [u16s, Ok, Inside]
  | succ k ih =>
    intro p
    unfold u16s
    rw [ok_bind' _ (fun a _ => ok_map), ih, ok_u16]
    unfold Inside; omega

theorem ok_u32s {d : Bytes} : ∀ (k p : Nat), Ok (u32s d p k) ↔ Inside d p (4 * k) := by
  intro k
  induction k with
  | zero => intro p; simp [u32s, Ok, Inside]
  | succ k ih =>
    intro p
    unfold u32s
    rw [ok_bind' _ (fun a _ => ok_map), ih, ok_u32]
    unfold Inside; omega

theorem ok_hmtx {d : Bytes} : ∀ (k p : Nat), Ok (hmtxWidths d p k) ↔ Inside d p (4 * k - 2) := by
  intro k
  induction k with
  | zero => intro p; simp [hmtxWidths, Ok, Inside]
  | succ k ih =>
    intro p
    unfold hmtxWidths
    rw [ok_bind' _ (fun a _ => ok_map), ih, ok_u16]
    unfold Inside; omega

theorem ok_groups {d : Bytes} : ∀ (k p : Nat), Ok (TTF.groups d p k) ↔ Inside d p (12 * k) := by
  intro k
  induction k with
  | zero => intro p; simp [TTF.groups, Ok, Inside]
  | succ k ih =>
    intro p
    unfold TTF.groups
    rw [ok_bind' _ (fun a _ => ok_bind' _ (fun b _ => ok_bind' _ (fun c _ => ok_map))), ih, ok_u32, ok_u32, ok_u32]
    unfold Inside; omega

theorem ok_tables {d : Bytes} : ∀ (k p : Nat) acc, Ok (readTables d p k acc) ↔ Inside d p (16 * k) := by
  intro k
  induction k with
  | zero => intro p acc; simp [readTables, Ok, Inside]
  | succ k ih =>
    intro p acc
    unfold readTables
    split
    · next h =>
      simp only [throw, throwThe, MonadExceptOf.throw, bind, Except.bind, Ok, reduceCtorEq, exists_false, false_iff]
      simp at h; unfold Inside; omega
    · next h =>
      simp only [ok_skip, ok_pure, true_and]
      rw [ok_bind' _ (fun a _ => ok_bind' _ (fun b _ => ok_bind' _ (fun c _ => ih _ _))), ok_u32, ok_u32, ok_u32]
      simp at h; unfold Inside; omega

/-- Seeking a table. -/
theorem seek_iff {d : Bytes} {n : Nat} {ts : List (Bytes × Table)} (hn : U16 d 4 n) (hd : DistinctTags d)
    (h : readTables d 12 n [] = .ok ts) (tag : String) (p : Nat) : seek ts tag = .ok p ↔ ∃ l, HasTable d (lit tag) p l := by
  have T := tableOf_iff hn hd h (lit tag)
  constructor
  · intro hs
    obtain ⟨t, ht, rfl⟩ := seek_ok hs
    exact ⟨_, table_of ((T t).1 ht)⟩
  · rintro ⟨l, n', i, hn', hi, e, ho, hl⟩
    obtain ⟨c, hc⟩ := (U32_exists (d := d) (p := 12 + 16 * i + 4)).2 (by have := U32_in ho; omega)
    have := (T ⟨c, p, l⟩).2 ⟨n', i, hn', hi, e, hc, ho, hl⟩
    unfold seek; rw [this]

/-! ### cmap -/

theorem offset31_iff {d : Bytes} : ∀ (k p acc off : Nat), offset31 d p k acc = .ok off ↔ Inside d p (8 * k) ∧
    ((∃ i < k, U16 d (p + 8 * i) 3 ∧ U16 d (p + 8 * i + 2) 1 ∧ U32 d (p + 8 * i + 4) off ∧
        ∀ j, i < j → j < k → ¬ (U16 d (p + 8 * j) 3 ∧ U16 d (p + 8 * j + 2) 1)) ∨
      (off = acc ∧ ∀ j < k, ¬ (U16 d (p + 8 * j) 3 ∧ U16 d (p + 8 * j + 2) 1))) := by
  intro k
  induction k with
  | zero => intro p acc off; simp [offset31, Inside, eq_comm]
  | succ k ih =>
    intro p acc off
    unfold offset31
    simp only [bind_ok, ih]
    have sh : ∀ i, p + 8 + 8 * i = p + 8 * (i + 1) := by intro i; omega
    simp only [sh, u16_ok, u32_ok]
    constructor
    · rintro ⟨pid, h1, eid, h2, o, h3, hin, h⟩
      refine ⟨by have := U32_in h3; unfold Inside at hin ⊢; omega, ?_⟩
      rcases h with ⟨i, hi, a, b, c, l⟩ | ⟨rfl, l⟩
      · refine Or.inl ⟨i + 1, by omega, a, b, c, ?_⟩
        intro j hj hk
        obtain ⟨j, rfl⟩ : ∃ j', j = j' + 1 := ⟨j - 1, by omega⟩
        exact l j (by omega) (by omega)
      · by_cases hc : pid = 3 ∧ eid = 1
        · rw [if_pos hc]
          obtain ⟨rfl, rfl⟩ := hc
          refine Or.inl ⟨0, by omega, by simpa using h1, by simpa using h2, by simpa using h3, ?_⟩
          intro j hj hk
          obtain ⟨j, rfl⟩ : ∃ j', j = j' + 1 := ⟨j - 1, by omega⟩
          exact l j (by omega)
        · rw [if_neg hc]
          refine Or.inr ⟨rfl, ?_⟩
          intro j hj
          cases j with
          | zero =>
            rintro ⟨q1, q2⟩
            exact hc ⟨U16_fun h1 (by simpa using q1), U16_fun h2 (by simpa using q2)⟩
          | succ j => exact l j (by omega)
    · rintro ⟨hin, h⟩
      have hlen : p + 8 * (k + 1) ≤ d.length := by unfold Inside at hin; omega
      obtain ⟨pid, h1⟩ := (U16_exists (d := d) (p := p)).2 (by omega)
      obtain ⟨eid, h2⟩ := (U16_exists (d := d) (p := p + 2)).2 (by omega)
      obtain ⟨o, h3⟩ := (U32_exists (d := d) (p := p + 4)).2 (by omega)
      refine ⟨pid, h1, eid, h2, o, h3, by unfold Inside; omega, ?_⟩
      rcases h with ⟨i, hi, a, b, c, l⟩ | ⟨rfl, l⟩
      · cases i with
        | zero =>
          right
          rw [if_pos ⟨U16_fun h1 (by simpa using a), U16_fun h2 (by simpa using b)⟩]
          refine ⟨(U32_fun h3 (by simpa using c)).symm, ?_⟩
          intro j hj
          exact l (j + 1) (by omega) (by omega)
        | succ i =>
          left
          exact ⟨i, by omega, a, b, c, fun j hj hk => l (j + 1) (by omega) (by omega)⟩
      · right
        rw [if_neg]
        · exact ⟨rfl, fun j hj => l (j + 1) (by omega)⟩
        · rintro ⟨rfl, rfl⟩
          exact l 0 (by omega) ⟨by simpa using h1, by simpa using h2⟩

theorem offset310_iff {d : Bytes} : ∀ (k p : Nat) (r : Option Nat), offset310 d p k = .ok r ↔ Inside d p (8 * k) ∧
    match r with
    | some off => ∃ i < k, U16 d (p + 8 * i) 3 ∧ U16 d (p + 8 * i + 2) 10 ∧ U32 d (p + 8 * i + 4) off ∧
        ∀ j < i, ¬ (U16 d (p + 8 * j) 3 ∧ U16 d (p + 8 * j + 2) 10)
    | none => ∀ j < k, ¬ (U16 d (p + 8 * j) 3 ∧ U16 d (p + 8 * j + 2) 10) := by
  intro k
  induction k with
  | zero => intro p r; cases r <;> simp [offset310, Inside]
  | succ k ih =>
    intro p r
    unfold offset310
    simp only [bind_ok, ih, pure_ok]
    have sh : ∀ i, p + 8 + 8 * i = p + 8 * (i + 1) := by intro i; omega
    simp only [sh, u16_ok, u32_ok]
    constructor
    · rintro ⟨pid, h1, eid, h2, o, h3, rest, ⟨hin, h⟩, rfl⟩
      refine ⟨by have := U32_in h3; unfold Inside at hin ⊢; omega, ?_⟩
      by_cases hc : pid = 3 ∧ eid = 10
      · rw [if_pos hc]
        obtain ⟨rfl, rfl⟩ := hc
        exact ⟨0, by omega, by simpa using h1, by simpa using h2, by simpa using h3, by omega⟩
      · rw [if_neg hc]
        have h0 : ¬ (U16 d (p + 8 * 0) 3 ∧ U16 d (p + 8 * 0 + 2) 10) := by
          rintro ⟨q1, q2⟩
          exact hc ⟨U16_fun h1 (by simpa using q1), U16_fun h2 (by simpa using q2)⟩
        cases rest with
        | none =>
          intro j hj
          cases j with
          | zero => exact h0
          | succ j => exact h j (by omega)
        | some off =>
          obtain ⟨i, hi, a, b, c, l⟩ := h
          refine ⟨i + 1, by omega, a, b, c, ?_⟩
          intro j hj
          cases j with
          | zero => exact h0
          | succ j => exact l j (by omega)
    · rintro ⟨hin, h⟩
      have hlen : p + 8 * (k + 1) ≤ d.length := by unfold Inside at hin; omega
      obtain ⟨pid, h1⟩ := (U16_exists (d := d) (p := p)).2 (by omega)
      obtain ⟨eid, h2⟩ := (U16_exists (d := d) (p := p + 2)).2 (by omega)
      obtain ⟨o, h3⟩ := (U32_exists (d := d) (p := p + 4)).2 (by omega)
      have hin' : Inside d (p + 8) (8 * k) := by unfold Inside; omega
      by_cases hc : pid = 3 ∧ eid = 10
      · obtain ⟨rest, hr⟩ : ∃ rest, offset310 d (p + 8) k = .ok rest := by
          clear h ih
          revert hin' 
          generalize p + 8 = q
          clear hlen hin h1 h2 h3 sh
          revert q
          induction k with
          | zero => intro q _; exact ⟨none, rfl⟩
          | succ k ih =>
            intro q hq
            have hl : q + 8 * (k + 1) ≤ d.length := by unfold Inside at hq; omega
            obtain ⟨pid', h1⟩ := (U16_exists (d := d) (p := q)).2 (by omega)
            obtain ⟨eid', h2⟩ := (U16_exists (d := d) (p := q + 2)).2 (by omega)
            obtain ⟨o', h3⟩ := (U32_exists (d := d) (p := q + 4)).2 (by omega)
            obtain ⟨rest, hr⟩ := ih (q + 8) (by unfold Inside; omega)
            unfold offset310
            simp only [bind_ok, pure_ok]
            exact ⟨_, pid', u16_ok.2 h1, eid', u16_ok.2 h2, o', u32_ok.2 h3, rest, hr, rfl⟩
        refine ⟨pid, h1, eid, h2, o, h3, rest, ?_, ?_⟩
        · have := (ih (p + 8) rest).1 hr
          simpa only [sh] using this
        · rw [if_pos hc]
          obtain ⟨rfl, rfl⟩ := hc
          cases r with
          | none => exact absurd ⟨by simpa using h1, by simpa using h2⟩ (h 0 (by omega))
          | some off =>
            obtain ⟨i, hi, a, b, c, l⟩ := h
            cases i with
            | zero => rw [U32_fun h3 (by simpa using c)]
            | succ i => exact absurd ⟨by simpa using h1, by simpa using h2⟩ (l 0 (by omega))
      · refine ⟨pid, h1, eid, h2, o, h3, r, ⟨hin', ?_⟩, by rw [if_neg hc]⟩
        cases r with
        | none => intro j hj; exact h (j + 1) (by omega)
        | some off =>
          obtain ⟨i, hi, a, b, c, l⟩ := h
          cases i with
          | zero => exact absurd ⟨U16_fun h1 (by simpa using a), U16_fun h2 (by simpa using b)⟩ hc
          | succ i => exact ⟨i, by omega, a, b, c, fun j hj => l (j + 1) (by omega)⟩

theorem ok_segChars {d : Bytes} (ro dl : Nat) : ∀ (n pos c : Nat), c ≤ 65535 → (Ok (segChars d ro dl pos c n) ↔
    (ro ≠ 0 → ∀ i < n, c + i < 65535 → pos + 2 * i + 2 ≤ d.length)) := by
  intro n
  induction n with
  | zero => intro pos c _; simp [segChars, Ok]
  | succ n ih =>
    intro pos c hc
    unfold segChars
    by_cases h : c = 65535
    · rw [if_pos h]
      simp only [Ok, Except.ok.injEq, exists_eq', true_iff]
      intro _ i _ hi; omega
    · rw [if_neg h]
      by_cases hr : ro > 0
      · simp only [if_pos hr]
        rw [ok_bind' (Ok (segChars d ro dl (pos + 2) (c + 1) n)) (fun a _ => by rw [ok_bind' _ (fun b _ => ok_map)]; simp [ok_pure]), ih _ _ (by omega), ok_u16]
        constructor
        · rintro ⟨h1, h2⟩ h0 i hi hci
          cases i with
          | zero => omega
          | succ i => have := h2 h0 i (by omega) (by omega); omega
        · intro hh
          refine ⟨by have := hh (by omega) 0 (by omega) (by omega); omega, ?_⟩
          intro h0 i hi hci
          have := hh h0 (i + 1) (by omega) (by omega); omega
      · simp only [if_neg hr]
        have : ro = 0 := by omega
        subst this
        rw [ok_bind' _ (fun a _ => ok_map), ih _ _ (by omega)]
        simp [ok_pure]

theorem ok_allChars {d : Bytes} (roff : Nat) : ∀ (l : List (Nat × Nat × Nat × Nat)) (i : Nat), (∀ x ∈ l, x.1 ≤ 65535) → (Ok (allChars d roff i l) ↔
    ∀ k c1 c2 dl ro, l[k]? = some (c1, c2, dl, ro) → ro ≠ 0 → ∀ c, c1 ≤ c → c ≤ c2 → c < 65535 → roff + 2 * (i + k) + ro + 2 * (c - c1) + 2 ≤ d.length) := by
  intro l
  induction l with
  | nil => intro i _; simp [allChars, Ok]
  | cons x rest ih =>
    obtain ⟨c1, c2, dl, ro⟩ := x
    intro i hl
    unfold allChars
    rw [ok_bind' _ (fun a _ => ok_map), ih _ (fun x hx => hl x (by simp [hx])), ok_segChars _ _ _ _ _ (hl (c1, c2, dl, ro) (by simp))]
    constructor
    · rintro ⟨h1, h2⟩ k c1' c2' dl' ro' hk h0 c ha hb hc
      cases k with
      | zero =>
        simp only [List.getElem?_cons_zero, Option.some.injEq, Prod.mk.injEq] at hk
        obtain ⟨rfl, rfl, rfl, rfl⟩ := hk
        have := h1 h0 (c - c1) (by omega) (by omega)
        omega
      | succ k =>
        have := h2 k c1' c2' dl' ro' (by simpa using hk) h0 c ha hb hc
        omega
    · intro h
      refine ⟨?_, ?_⟩
      · intro h0 j hj hc
        have := h 0 c1 c2 dl ro rfl h0 (c1 + j) (by omega) (by omega) hc
        omega
      · intro k c1' c2' dl' ro' hk h0 c ha hb hc
        have := h (k + 1) c1' c2' dl' ro' (by simpa using hk) h0 c ha hb hc
        omega

theorem ok_cmap12 {d : Bytes} {cm n : Nat} (hn : U16 d (cm + 2) n) (hin : Inside d (cm + 4) (8 * n)) :
    Ok (parseCmap12 d cm) ↔ ∀ i off, i < n → RecordNo d cm i 3 10 off → (∀ j o, j < i → ¬ RecordNo d cm j 3 10 o) → Complete12 d (cm + off) := by
  have recd : ∀ j, j < n → (U16 d (cm + 4 + 8 * j) 3 ∧ U16 d (cm + 4 + 8 * j + 2) 10) → ∃ o, RecordNo d cm j 3 10 o := by
    intro j hj h
    obtain ⟨o, ho⟩ := (U32_exists (d := d) (p := cm + 4 + 8 * j + 4)).2 (by unfold Inside at hin; omega)
    exact ⟨o, h.1, h.2, ho⟩
  unfold parseCmap12
  rw [ok_bind]
  constructor
  · rintro ⟨n', hn', h⟩ i off hi hr hfirst
    rw [u16_ok] at hn'
    have := U16_fun hn hn'; subst this
    rw [ok_bind] at h
    obtain ⟨r, hr', h⟩ := h
    obtain ⟨-, hc⟩ := (offset310_iff _ _ _).1 hr'
    cases r with
    | none => exact absurd ⟨hr.1, hr.2.1⟩ (hc i hi)
    | some o =>
      obtain ⟨k, hk, a, b, c, l⟩ := hc
      have hik : i = k := by
        rcases Nat.lt_trichotomy i k with hlt | heq | hgt
        · exact absurd ⟨hr.1, hr.2.1⟩ (l i hlt)
        · exact heq
        · exact absurd ⟨a, b, c⟩ (hfirst k o hgt)
      subst hik
      have := U32_fun hr.2.2 c; subst this
      simp only [] at h
      rw [ok_bind] at h
      obtain ⟨fmt, h1, h⟩ := h
      split at h
      · rw [ok_throw_bind] at h; exact h.elim
      · next hf =>
        rw [ok_bind] at h
        obtain ⟨res, h2, h⟩ := h
        split at h
        · rw [ok_throw_bind] at h; exact h.elim
        · next hres =>
          rw [ok_bind] at h
          obtain ⟨ng, h3, h⟩ := h
          rw [ok_groups] at h
          simp only [ne_eq, Decidable.not_not] at hf hres
          subst hf hres
          exact ⟨u16_ok.1 h1, u16_ok.1 h2, ng, u32_ok.1 h3, h⟩
  · intro h
    refine ⟨n, u16_ok.2 hn, ?_⟩
    rw [ok_bind]
    by_cases hex : ∃ i < n, U16 d (cm + 4 + 8 * i) 3 ∧ U16 d (cm + 4 + 8 * i + 2) 10
    · have hmin : ∃ i < n, (U16 d (cm + 4 + 8 * i) 3 ∧ U16 d (cm + 4 + 8 * i + 2) 10) ∧ ∀ j < i, ¬ (U16 d (cm + 4 + 8 * j) 3 ∧ U16 d (cm + 4 + 8 * j + 2) 10) := by
        obtain ⟨i, hi, hp⟩ := hex
        induction i using Nat.strongRecOn with
        | _ i ih =>
          by_cases hq : ∃ j < i, U16 d (cm + 4 + 8 * j) 3 ∧ U16 d (cm + 4 + 8 * j + 2) 10
          · obtain ⟨j, hj, hjp⟩ := hq
            exact ih j hj (by omega) hjp
          · exact ⟨i, hi, hp, fun j hj hjp => hq ⟨j, hj, hjp⟩⟩
      obtain ⟨i, hi, hp, hmin⟩ := hmin
      obtain ⟨off, hrec⟩ := recd i hi hp
      obtain ⟨c1, c2, ng, c3, c4⟩ := h i off hi hrec (fun j o hj hr => hmin j hj ⟨hr.1, hr.2.1⟩)
      refine ⟨some off, (offset310_iff _ _ _).2 ⟨hin, i, hi, hp.1, hp.2, hrec.2.2, hmin⟩, ?_⟩
      simp only []
      rw [ok_bind]
      refine ⟨12, u16_ok.2 c1, ?_⟩
      rw [if_neg (by simp), ok_bind]
      refine ⟨0, u16_ok.2 c2, ?_⟩
      rw [if_neg (by simp), ok_bind]
      exact ⟨ng, u32_ok.2 c3, (ok_groups _ _).2 c4⟩
    · exact ⟨none, (offset310_iff _ _ _).2 ⟨hin, fun j hj hp => hex ⟨j, hj, hp⟩⟩, by rw [ok_pure]; trivial⟩

theorem ok_cmap4 {d : Bytes} {b : Nat} (hsize : d.length < 2 ^ 62) :
    Ok (parseCmap4 d b >>= fun c => allChars d (b + 16 + 6 * c.segCount) 0 (c.startCount.zip (c.endCount.zip (c.idDelta.zip c.idRangeOffset)))) ↔
      Complete4 d b := by
  rw [ok_bind]
  constructor
  · rintro ⟨c, hc, h⟩
    have P := parseCmap4_ok hc
    unfold parseCmap4 at hc
    rw [bind_ok] at hc
    obtain ⟨fmt, hf, hc⟩ := hc
    split at hc
    · simp only [bind_ok, throw_ne, false_and, exists_false] at hc
    next hfmt =>
    simp only [ne_eq, Decidable.not_not] at hfmt
    subst hfmt
    simp only [bind_ok, pure_ok] at hc
    obtain ⟨len, h1, sx, h2, ec, h3, st, h4, dl, h5, ro, h6, ga, h7, rfl⟩ := hc
    rw [u16_ok] at h1 h2 hf
    have h7' := (ok_u16s _ _).1 ⟨_, h7⟩
    have h6' := (ok_u16s _ _).1 ⟨_, h6⟩
    have hlen := U16_lt h1
    have hsx := U16_lt h2
    have hle : 16 + 8 * (sx / 2) ≤ len := by
      by_contra hlt
      rw [if_neg hlt] at h7'
      unfold Inside at h7'
      omega
    rw [if_pos hle] at h7'
    refine ⟨sx / 2, len, ⟨hf, sx, h2, rfl⟩, h1, hle, ?_, ?_, ?_⟩
    · unfold Inside at h6'; omega
    · rw [Nat.mul_comm 2] at h7'; exact h7'
    · intro i s e r hi hs he hr h0 c hsc hce hc
      obtain ⟨s', s1, s2⟩ := u16s_get h4 hi
      obtain ⟨e', e1, e2⟩ := u16s_get h3 hi
      obtain ⟨r', r1, r2⟩ := u16s_get h6 hi
      obtain ⟨dd, d1, d2⟩ := u16s_get h5 hi
      have := U16_fun hs s2; subst this
      have := U16_fun he e2; subst this
      have := U16_fun hr (by unfold rangeAddr; exact r2); subst this
      rw [ok_allChars _ _ _ ?_] at h
      · have := h i s e dd r ?_ h0 c hsc hce hc
        · simp only [] at this
          unfold rangeAddr; omega
        · simp [List.getElem?_zip_eq_some, s1, e1, r1, d1]
      · intro x hx
        obtain ⟨y1, y2⟩ := x
        have := (List.of_mem_zip hx).1
        obtain ⟨k, hk, hk'⟩ := List.getElem_of_mem this
        have := (u16s_ok h4).2 k y1 (by rw [List.getElem?_eq_getElem hk]; simpa using hk')
        have := U16_lt this
        show y1 ≤ 65535
        omega
  · rintro ⟨sc, len, ⟨hf, sx, h2, rfl⟩, h1, hle, hsc, hga, hall⟩
    obtain ⟨ec, h3⟩ := (ok_u16s (d := d) (sx / 2) (b + 14)).2 (by unfold Inside; omega)
    obtain ⟨st, h4⟩ := (ok_u16s (d := d) (sx / 2) (b + 16 + 2 * (sx / 2))).2 (by unfold Inside; omega)
    obtain ⟨dl, h5⟩ := (ok_u16s (d := d) (sx / 2) (b + 16 + 4 * (sx / 2))).2 (by unfold Inside; omega)
    obtain ⟨ro, h6⟩ := (ok_u16s (d := d) (sx / 2) (b + 16 + 6 * (sx / 2))).2 (by unfold Inside; omega)
    obtain ⟨ga, h7⟩ := (ok_u16s (d := d) ((len - (16 + 8 * (sx / 2))) / 2) (b + 16 + 8 * (sx / 2))).2 (by rw [Nat.mul_comm 2]; exact hga)
    refine ⟨⟨sx / 2, ec, st, dl, ro, ga⟩, ?_, ?_⟩
    · unfold parseCmap4
      rw [bind_ok]
      refine ⟨4, u16_ok.2 hf, ?_⟩
      rw [if_neg (by simp)]
      simp only [bind_ok, pure_ok]
      exact ⟨len, u16_ok.2 h1, sx, u16_ok.2 h2, ec, h3, st, h4, dl, h5, ro, h6, ga, by rw [if_pos hle]; exact h7, rfl⟩
    · simp only []
      rw [ok_allChars]
      · intro k c1 c2 dd r hk h0 c ha hb hc
        simp only [List.getElem?_zip_eq_some] at hk
        obtain ⟨k1, k2, k3, k4⟩ := hk
        have hkl : k < sx / 2 := by
          have := (List.getElem?_eq_some_iff.1 k1).1
          rw [(u16s_ok h4).1] at this; exact this
        have := hall k c1 c2 r hkl ((u16s_ok h4).2 _ _ k1) ((u16s_ok h3).2 _ _ k2) (by unfold RangeOffset rangeAddr; exact (u16s_ok h6).2 _ _ k4) h0 c ha hb hc
        unfold rangeAddr at this
        omega
      · intro x hx
        obtain ⟨y1, y2⟩ := x
        have := (List.of_mem_zip hx).1
        obtain ⟨k, hk, hk'⟩ := List.getElem_of_mem this
        have := (u16s_ok h4).2 k y1 (by rw [List.getElem?_eq_getElem hk]; simpa using hk')
        have := U16_lt this
        show y1 ≤ 65535
        omega

theorem ok_cmap {d : Bytes} {cm cl : Nat} (hsize : d.length < 2 ^ 62) (hd : DistinctTags d) (ht : HasTable d (lit "cmap") cm cl) :
    Ok (parseCmapAt d cm) ↔ HasCmap d := by
  unfold parseCmapAt
  rw [ok_bind]
  constructor
  · rintro ⟨n, hn, h⟩
    rw [u16_ok] at hn
    rw [ok_bind] at h
    obtain ⟨off, ho, h⟩ := h
    obtain ⟨hin, hoff⟩ := (offset31_iff _ _ _ _).1 ho
    split at h
    · rw [ok_throw_bind] at h; exact h.elim
    next h0 =>
    have h4 : Ok (parseCmap4 d (cm + off) >>= fun c => allChars d (cm + off + 16 + 6 * c.segCount) 0 (c.startCount.zip (c.endCount.zip (c.idDelta.zip c.idRangeOffset)))) := by
      rw [ok_bind] at h ⊢
      obtain ⟨c, hc, h⟩ := h
      rw [ok_bind] at h
      obtain ⟨x, hx, h⟩ := h
      exact ⟨c, hc, x, hx⟩
    have h12 : Ok (parseCmap12 d cm) := by
      rw [ok_bind] at h
      obtain ⟨c, hc, h⟩ := h
      rw [ok_bind] at h
      obtain ⟨x, hx, h⟩ := h
      rwa [ok_map] at h
    refine ⟨cm, cl, n, ht, hn, hin, ?_, (ok_cmap12 hn hin).1 h12⟩
    rcases hoff with ⟨i, hi, a, b, c, l⟩ | ⟨e, -⟩
    · exact ⟨i, off, hi, ⟨a, b, c⟩, h0, fun j o hj hk hr => l j hj hk ⟨hr.1, hr.2.1⟩, (ok_cmap4 hsize).1 h4⟩
    · exact absurd e h0
  · rintro ⟨cm', cl', n, ht', hn, hin, ⟨i, off, hi, hr, h0, hl, h4⟩, h12⟩
    obtain ⟨rfl, rfl⟩ := HasTable_fun hd ht ht'
    refine ⟨n, u16_ok.2 hn, ?_⟩
    rw [ok_bind]
    refine ⟨off, (offset31_iff _ _ _ _).2 ⟨hin, Or.inl ⟨i, hi, hr.1, hr.2.1, hr.2.2, ?_⟩⟩, ?_⟩
    · intro j hj hk hp
      obtain ⟨o, ho⟩ := (U32_exists (d := d) (p := cm + 4 + 8 * j + 4)).2 (by unfold Inside at hin; omega)
      exact hl j o hj hk ⟨hp.1, hp.2, ho⟩
    rw [if_neg h0]
    have h4' := (ok_cmap4 hsize).2 h4
    rw [ok_bind] at h4'
    obtain ⟨c, hc, x, hx⟩ := h4'
    rw [ok_bind]
    refine ⟨c, hc, ?_⟩
    rw [ok_bind]
    exact ⟨x, hx, ok_map.2 ((ok_cmap12 hn hin).2 h12)⟩

/-! ### The other tables -/

theorem readBytes_iff {d : Bytes} {p n : Nat} {bs : Bytes} (h : bs ≠ []) : readBytes d p n = .ok bs ↔ BytesAt d p n bs := by
  unfold readBytes BytesAt
  constructor
  · intro hr
    split at hr
    · cases hr
    · split at hr
      · cases hr
      · cases hr; exact ⟨by omega, rfl⟩
  · rintro ⟨h1, rfl⟩
    have : 0 < n := by
      rcases Nat.eq_zero_or_pos n with rfl | h'
      · simp at h
      · exact h'
    rw [if_neg (by omega), if_neg (by omega)]

theorem nameLoop_iff {d : Bytes} (strings : Nat) : ∀ (k p : Nat) (s : Bytes), s ≠ [] → (nameLoop d strings p k = .ok s ↔
    ∃ i < k, ∃ len off bs, (U16 d (p + 12 * i + 6) 6 ∧ U16 d (p + 12 * i + 8) len ∧ U16 d (p + 12 * i + 10) off) ∧
      (∀ j < i, ∃ id l o, (U16 d (p + 12 * j + 6) id ∧ U16 d (p + 12 * j + 8) l ∧ U16 d (p + 12 * j + 10) o) ∧ id ≠ 6) ∧
      readBytes d (strings + off) len = .ok bs ∧ s = bs.filter fun b => b ≠ 0 ∧ b ≠ 48) := by
  intro k
  induction k with
  | zero => intro p s hs; simp [nameLoop]; intro h; exact hs h
  | succ k ih =>
    intro p s hs
    unfold nameLoop
    simp only [bind_ok, u16_ok]
    constructor
    · rintro ⟨id, h1, len, h2, off, h3, h⟩
      by_cases hid : id = 6
      · rw [if_pos hid] at h
        subst hid
        simp only [bind_ok, pure_ok] at h
        obtain ⟨bs, hb, rfl⟩ := h
        exact ⟨0, by omega, len, off, bs, ⟨by simpa using h1, by simpa using h2, by simpa using h3⟩, by omega, hb, rfl⟩
      · rw [if_neg hid] at h
        obtain ⟨i, hi, len', off', bs, a, b, c, e⟩ := (ih _ _ hs).1 h
        have sh : ∀ i, p + 12 + 12 * i = p + 12 * (i + 1) := by intro i; omega
        simp only [sh] at a b
        refine ⟨i + 1, by omega, len', off', bs, a, ?_, c, e⟩
        intro j hj
        cases j with
        | zero => exact ⟨id, len, off, ⟨by simpa using h1, by simpa using h2, by simpa using h3⟩, hid⟩
        | succ j => exact b j (by omega)
    · rintro ⟨i, hi, len, off, bs, a, b, c, e⟩
      cases i with
      | zero =>
        refine ⟨6, by simpa using a.1, len, by simpa using a.2.1, off, by simpa using a.2.2, ?_⟩
        rw [if_pos rfl]
        simp only [bind_ok, pure_ok]
        exact ⟨bs, c, e.symm⟩
      | succ i =>
        obtain ⟨id, l, o, hh, hne⟩ := b 0 (by omega)
        refine ⟨id, by simpa using hh.1, l, by simpa using hh.2.1, o, by simpa using hh.2.2, ?_⟩
        rw [if_neg hne]
        have sh : ∀ i, p + 12 + 12 * i = p + 12 * (i + 1) := by intro i; omega
        refine (ih _ _ hs).2 ⟨i, by omega, len, off, bs, ?_, ?_, c, e⟩
        · simp only [sh]; exact a
        · intro j hj; simp only [sh]; exact b (j + 1) (by omega)

theorem ok_kernPairs {d : Bytes} : ∀ (k p : Nat) acc, Ok (kernPairs d p k acc) ↔ Inside d p (6 * k) := by
  intro k
  induction k with
  | zero => intro p acc; simp [kernPairs, Ok, Inside]
  | succ k ih =>
    intro p acc
    unfold kernPairs
    rw [ok_bind' _ (fun a _ => ok_bind' _ (fun b _ => ok_bind' _ (fun c _ => ih _ _))), ok_u16, ok_u16, ok_i16]
    unfold Inside; omega

theorem ok_kernTables {d : Bytes} : ∀ (k p : Nat) acc, Ok (kernTables d p k acc) ↔ KernSubtables d p k := by
  intro k
  induction k with
  | zero => intro p acc; simp [kernTables, Ok, KernSubtables]
  | succ k ih =>
    intro p acc
    unfold kernTables KernSubtables
    rw [ok_bind]
    constructor
    · rintro ⟨cov, h1, h⟩
      split at h
      · rw [ok_throw_bind] at h; exact h.elim
      next hc =>
      rw [ok_bind] at h
      obtain ⟨n, h2, h⟩ := h
      rw [ok_bind] at h
      obtain ⟨l, h3, h⟩ := h
      exact ⟨cov, n, u16_ok.1 h1, by simpa using hc, u16_ok.1 h2, (ok_kernPairs _ _ _).1 ⟨_, h3⟩, (ih _ _).1 h⟩
    · rintro ⟨cov, n, h1, hc, h2, h3, h⟩
      refine ⟨cov, u16_ok.2 h1, ?_⟩
      rw [if_neg (by simpa using hc), ok_bind]
      refine ⟨n, u16_ok.2 h2, ?_⟩
      rw [ok_bind]
      obtain ⟨l, h3⟩ := (ok_kernPairs _ _ []).2 h3
      exact ⟨l, h3, (ih _ _).2 h⟩

section
variable {d : Bytes} {n : Nat} {ts : List (Bytes × Table)} (hn : U16 d 4 n) (hd : DistinctTags d) (hts : readTables d 12 n [] = .ok ts)
include hn hd hts

theorem ok_seek {β : Type} {tag : String} {f : Nat → Res β} : Ok (seek ts tag >>= f) ↔ ∃ p l, HasTable d (lit tag) p l ∧ Ok (f p) := by
  rw [ok_bind]
  simp only [seek_iff hn hd hts]
  grind

theorem ok_name : Ok (parseName d ts) ↔ Named d := by
  unfold parseName
  rw [ok_seek hn hd hts]
  constructor
  · rintro ⟨p, l, ht, h⟩
    rw [ok_bind] at h
    obtain ⟨c, h1, h⟩ := h
    rw [ok_bind] at h
    obtain ⟨st, h2, h⟩ := h
    rw [ok_bind] at h
    obtain ⟨s, h3, h⟩ := h
    split at h
    · rw [ok_throw_bind] at h; exact h.elim
    next hs =>
    obtain ⟨i, hi, len, off, bs, a, b, e, f⟩ := (nameLoop_iff _ _ _ _ hs).1 h3
    have hb : ∃ b ∈ bs, b ≠ 0 ∧ b ≠ 48 := by
      obtain ⟨x, hx⟩ := List.exists_mem_of_ne_nil _ hs
      rw [f] at hx
      simp only [List.mem_filter, decide_eq_true_eq] at hx
      exact ⟨x, hx.1, hx.2⟩
    have hne : bs ≠ [] := by rintro rfl; obtain ⟨_, h, _⟩ := hb; cases h
    exact ⟨p, l, c, st, i, len, off, bs, ht, u16_ok.1 h1, u16_ok.1 h2, hi, a, b, (readBytes_iff hne).1 e, hb⟩
  · rintro ⟨p, l, c, st, k, len, off, bs, ht, h1, h2, hk, a, b, e, x, hx, hx'⟩
    refine ⟨p, l, ht, ?_⟩
    rw [ok_bind]
    refine ⟨c, u16_ok.2 h1, ?_⟩
    rw [ok_bind]
    refine ⟨st, u16_ok.2 h2, ?_⟩
    rw [ok_bind]
    have hne : bs ≠ [] := by rintro rfl; cases hx
    have hs : (bs.filter fun b => b ≠ 0 ∧ b ≠ 48) ≠ [] := by
      apply List.ne_nil_of_mem (a := x)
      simp only [List.mem_filter, decide_eq_true_eq]
      exact ⟨hx, hx'⟩
    refine ⟨_, (nameLoop_iff _ _ _ _ hs).2 ⟨k, hk, len, off, bs, a, b, (readBytes_iff hne).2 e, rfl⟩, ?_⟩
    rw [if_neg hs]
    exact ⟨_, rfl⟩

theorem ok_kern : Ok (parseKern d ts) ↔ KernComplete d := by
  unfold parseKern KernComplete
  have T := tableOf_iff hn hd hts (lit "kern")
  have S := seek_iff hn hd hts "kern"
  cases ht : tableOf ts (lit "kern") with
  | none =>
    simp only [ok_ok, true_iff]
    intro p l h
    have := (S p).2 ⟨l, h⟩
    unfold seek at this; rw [ht] at this; cases this
  | some t =>
    have htt := table_of ((T t).1 ht)
    simp only []
    rw [ok_bind]
    constructor
    · rintro ⟨x, h1, h⟩ p l hp
      obtain ⟨rfl, rfl⟩ := HasTable_fun hd htt hp
      rw [ok_bind] at h
      obtain ⟨k, h2, h⟩ := h
      rw [ok_map] at h
      exact ⟨k, u16_ok.1 h2, (ok_kernTables _ _ _).1 h⟩
    · intro h
      obtain ⟨k, h2, h3⟩ := h _ _ htt
      obtain ⟨x, h1⟩ := (ok_u16 (d := d) (p := t.offset)).2 (by have := U16_in h2; omega)
      refine ⟨x, h1, ?_⟩
      rw [ok_bind]
      exact ⟨k, u16_ok.2 h2, ok_map.2 ((ok_kernTables _ _ _).2 h3)⟩

theorem ok_post : Ok (parsePost d ts) ↔ TableOf d "post" 16 := by
  unfold parsePost TableOf
  rw [ok_seek hn hd hts]
  refine exists_congr fun p => exists_congr fun l => and_congr_right fun _ => ?_
  rw [ok_bind' _ (fun _ _ => ok_bind' _ (fun _ _ => ok_bind' _ (fun _ _ => ok_map))), ok_i16, ok_i16, ok_i16, ok_u32]
  omega

theorem ok_os2 (asc : Int) : Ok (parseOS2 d ts asc) ↔ HasOS2 d := by
  unfold parseOS2 HasOS2
  rw [ok_seek hn hd hts]
  refine exists_congr fun p => exists_congr fun l => ?_
  have key : ∀ v, Ok (do
      let _ ← u16 d (p + 8)
      let _ ← u16 d (p + 62)
      let ta ← i16 d (p + 68)
      let td ← i16 d (p + 70)
      let _ ← i16 d (p + 72)
      let wa ← u16 d (p + 74)
      let wd ← u16 d (p + 76)
      if v ≥ 2 then do
        let xh ← i16 d (p + 86)
        let ch ← i16 d (p + 88)
        pure (⟨v, ta, td, wa, wd, xh, ch⟩ : OS2)
      else pure ⟨v, ta, td, wa, wd, 0, asc⟩) ↔ p + 78 ≤ d.length ∧ (2 ≤ v → p + 90 ≤ d.length) := by
    intro v
    have last : ∀ ta td wa wd, Ok (if v ≥ 2 then do
        let xh ← i16 d (p + 86)
        let ch ← i16 d (p + 88)
        pure (⟨v, ta, td, wa, wd, xh, ch⟩ : OS2)
      else pure ⟨v, ta, td, wa, wd, 0, asc⟩) ↔ (2 ≤ v → p + 90 ≤ d.length) := by
      intro ta td wa wd
      split
      · next hv =>
        rw [ok_bind' _ (fun _ _ => ok_map), ok_i16, ok_i16]
        constructor
        · intro h _; omega
        · intro h; have := h hv; omega
      · next hv =>
        rw [ok_pure]
        constructor
        · intro _ h; exact absurd h hv
        · intro _; trivial
    rw [ok_bind' _ (fun _ _ => ok_bind' _ (fun _ _ => ok_bind' _ (fun _ _ => ok_bind' _ (fun _ _ => ok_bind' _ (fun _ _ => ok_bind' _ (fun _ _ => ok_bind' _ (fun _ _ => last _ _ _ _)))))))]
    simp only [ok_u16, ok_i16]
    omega
  rw [ok_bind]
  constructor
  · rintro ⟨ht, v, h1, h⟩
    obtain ⟨a, b⟩ := (key v).1 h
    exact ⟨v, ht, u16_ok.1 h1, a, b⟩
  · rintro ⟨v, ht, h1, a, b⟩
    exact ⟨ht, v, u16_ok.2 h1, (key v).2 ⟨a, b⟩⟩

theorem ok_head : Ok (parseHead d ts) ↔ HasHead d := by
  unfold parseHead HasHead
  rw [ok_seek hn hd hts]
  refine exists_congr fun p => exists_congr fun l => and_congr_right fun _ => ?_
  rw [ok_bind]
  have key : Ok (do
      let upem ← u16 d (p + 18)
      let _ ← i16 d (p + 36)
      let _ ← i16 d (p + 38)
      let _ ← i16 d (p + 40)
      let _ ← i16 d (p + 42)
      let fmt ← i16 d (p + 50)
      pure (upem, fmt)) ↔ p + 52 ≤ d.length := by
    rw [ok_bind' _ (fun _ _ => ok_bind' _ (fun _ _ => ok_bind' _ (fun _ _ => ok_bind' _ (fun _ _ => ok_bind' _ (fun _ _ => ok_map)))))]
    simp only [ok_u16, ok_i16]
    omega
  constructor
  · rintro ⟨m, h1, h⟩
    split at h
    · rw [ok_throw_bind] at h; exact h.elim
    next hm =>
    simp only [ne_eq, Decidable.not_not] at hm
    subst hm
    exact ⟨u32_ok.1 h1, key.1 h⟩
  · rintro ⟨h1, h⟩
    refine ⟨_, u32_ok.2 h1, ?_⟩
    rw [if_neg (by simp)]
    exact key.2 h

theorem head_format {x : Nat × Int} (h : parseHead d ts = .ok x) : ((x.2 == 0) = true ↔ ShortLoca d) ∧ ((x.2 == 0) = false ↔ LongLoca d) := by
  unfold parseHead at h
  simp only [bind_ok] at h
  obtain ⟨p, hp, magic, hm, h⟩ := h
  split at h
  · simp only [bind_ok, throw_ne, false_and, exists_false] at h
  simp only [bind_ok, pure_ok] at h
  obtain ⟨_, _, _, _, _, _, _, _, _, _, v, hv, rfl⟩ := h
  obtain ⟨l, ht⟩ := (seek_iff hn hd hts _ _).1 hp
  obtain ⟨y, hy, hiff⟩ := i16_zero hv
  have e1 : ((v == 0) = true ↔ ShortLoca d) := by
    rw [beq_iff_eq, hiff]
    constructor
    · rintro rfl; exact ⟨p, l, ht, hy⟩
    · rintro ⟨p', l', ht', h0⟩
      obtain ⟨rfl, rfl⟩ := HasTable_fun hd ht ht'
      exact U16_fun hy h0
  refine ⟨e1, ?_⟩
  rw [← Bool.not_eq_true, beq_iff_eq, hiff]
  constructor
  · intro hne; exact ⟨p, l, y, ht, hy, hne⟩
  · rintro ⟨p', l', x', ht', h0, hne⟩
    obtain ⟨rfl, rfl⟩ := HasTable_fun hd ht ht'
    rw [U16_fun hy h0]; exact hne

theorem ok_loca {x : Nat × Int} (h : parseHead d ts = .ok x) : Ok (parseLoca d ts (x.2 == 0)) ↔ HasLoca d := by
  obtain ⟨hs, hl⟩ := head_format hn hd hts h
  unfold parseLoca HasLoca
  have T := tableOf_iff hn hd hts (lit "loca")
  have S := seek_iff hn hd hts "loca"
  cases ht : tableOf ts (lit "loca") with
  | none =>
    simp only [ok_error, false_iff]
    rintro ⟨p, l, h, -⟩
    have := (S p).2 ⟨l, h⟩
    unfold seek at this; rw [ht] at this; cases this
  | some t =>
    have htt := table_of ((T t).1 ht)
    simp only []
    cases hb : (x.2 == 0) with
    | true =>
      have h1 := hs.1 hb
      have h2 : ¬ LongLoca d := fun h => by have := hl.2 h; rw [hb] at this; cases this
      rw [if_pos rfl, ok_map, ok_u16s, Nat.mul_comm 2]
      constructor
      · intro h; exact ⟨_, _, htt, Or.inl ⟨h1, h⟩⟩
      · rintro ⟨p, l, hp, ⟨-, h⟩ | ⟨h, -⟩⟩
        · obtain ⟨rfl, rfl⟩ := HasTable_fun hd htt hp; exact h
        · exact absurd h h2
    | false =>
      have h1 := hl.1 hb
      have h2 : ¬ ShortLoca d := fun h => by have := hs.2 h; rw [hb] at this; cases this
      rw [if_neg (by simp), ok_u32s, Nat.mul_comm 4]
      constructor
      · intro h; exact ⟨_, _, htt, Or.inr ⟨h1, h⟩⟩
      · rintro ⟨p, l, hp, ⟨h, -⟩ | ⟨-, h⟩⟩
        · exact absurd h h2
        · obtain ⟨rfl, rfl⟩ := HasTable_fun hd htt hp; exact h

theorem ok_hmtxTable {nHM nG : Nat} : Ok (parseHmtx d ts nHM nG) ↔ (nHM = 0 → nG = 0) ∧ ∃ q m, HasTable d (lit "hmtx") q m ∧ Inside d q (4 * nHM - 2) := by
  unfold parseHmtx
  rw [ok_seek hn hd hts]
  constructor
  · rintro ⟨q, m, ht, h⟩
    rw [ok_bind] at h
    obtain ⟨ws, h1, h⟩ := h
    refine ⟨?_, q, m, ht, (ok_hmtx _ _).1 ⟨_, h1⟩⟩
    rintro rfl
    by_contra hg
    rw [if_pos (by omega)] at h
    rw [ok_throw] at h; exact h
  · rintro ⟨h0, q, m, ht, h⟩
    refine ⟨q, m, ht, ?_⟩
    rw [ok_bind]
    obtain ⟨ws, h1⟩ := (ok_hmtx _ _).2 h
    refine ⟨ws, h1, ?_⟩
    split
    · cases nHM with
      | zero => omega
      | succ k => exact ⟨_, rfl⟩
    · exact ⟨_, rfl⟩

theorem hhea_iff {x : Int × Int × Nat} (h : parseHhea d ts = .ok x) : ∃ p l, HasTable d (lit "hhea") p l ∧ U16 d (p + 34) x.2.2 := by
  unfold parseHhea at h
  simp only [bind_ok, pure_ok] at h
  obtain ⟨p, hp, _, _, _, _, n', hn', rfl⟩ := h
  obtain ⟨l, ht⟩ := (seek_iff hn hd hts _ _).1 hp
  exact ⟨p, l, ht, u16_ok.1 hn'⟩

theorem ok_hhea : Ok (parseHhea d ts) ↔ TableOf d "hhea" 36 := by
  unfold parseHhea TableOf
  rw [ok_seek hn hd hts]
  refine exists_congr fun p => exists_congr fun l => and_congr_right fun _ => ?_
  rw [ok_bind' _ (fun _ _ => ok_bind' _ (fun _ _ => ok_map)), ok_i16, ok_i16, ok_u16]
  omega

theorem maxp_iff {g : Nat} : parseMaxp d ts = .ok g ↔ NumGlyphs d g := by
  unfold parseMaxp NumGlyphs
  simp only [bind_ok, seek_iff hn hd hts, u16_ok]
  grind

theorem ok_box : Ok (parseBox d ts) ↔ ∃ p l, HasTable d (lit "head") p l ∧ p + 44 ≤ d.length := by
  unfold parseBox
  rw [ok_seek hn hd hts]
  refine exists_congr fun p => exists_congr fun l => and_congr_right fun _ => ?_
  rw [ok_bind' _ (fun _ _ => ok_bind' _ (fun _ _ => ok_bind' _ (fun _ _ => ok_map)))]
  simp only [ok_i16]
  omega

end

theorem U16_four {d : Bytes} {n : Nat} (h : U16 d 4 n) : 4 ≤ d.length := by have := U16_in h; omega

/-- When `ParseFontData` succeeds. -/
theorem ok_load {d : Bytes} {k : Bool} (hsize : d.length < 2 ^ 62) (hd : DistinctTags d) : Ok (load d k) ↔ Acceptable d k := by
  constructor
  · rintro ⟨i, h⟩
    unfold load at h
    simp only [bind_ok] at h
    obtain ⟨f, hf, box, hbox, name, hname, os2, hos, x, hpost, h⟩ := h
    unfold parseFont at hf
    split at hf
    · simp only [bind_ok, throw_ne, false_and, exists_false] at hf
    next hsig =>
    simp only [bind_ok, pure_ok] at hf
    obtain ⟨n, hn, ts, hts, hx, hhead, yx, hhhea, nG, hmaxp, ws, hws, cm, hcm, loca, hloca, rfl⟩ := hf
    rw [u16_ok] at hn
    simp only [ne_eq, Decidable.not_not] at hsig
    obtain ⟨ph, lh, h1, h2⟩ := hhea_iff hn hd hts hhhea
    obtain ⟨g0, q, m, hq, hq'⟩ := (ok_hmtxTable hn hd hts).1 ⟨_, hws⟩
    refine ⟨⟨⟨by have := U16_in hn; omega, by simpa using hsig.symm⟩, n, hn, (ok_tables _ _ _).1 ⟨_, hts⟩⟩, (ok_head hn hd hts).1 ⟨_, hhead⟩,
      (ok_hhea hn hd hts).1 ⟨_, hhhea⟩, ⟨ph, lh, q, m, _, nG, h1, h2, hq, (maxp_iff hn hd hts).1 hmaxp, g0, hq'⟩, ?_,
      (ok_name hn hd hts).1 ⟨_, hname⟩, (ok_os2 hn hd hts _).1 ⟨_, hos⟩, (ok_post hn hd hts).1 ⟨_, hpost⟩,
      (ok_loca hn hd hts hhead).1 ⟨_, hloca⟩, ?_⟩
    · unfold parseCmap at hcm
      obtain ⟨c, l, ht, hc⟩ := (ok_seek hn hd hts).1 ⟨_, hcm⟩
      exact (ok_cmap hsize hd ht).1 hc
    · rintro rfl
      simp only [if_true, bind_ok] at h
      obtain ⟨kt, hk, -⟩ := h
      exact (ok_kern hn hd hts).1 ⟨_, hk⟩
  · intro A
    obtain ⟨⟨h4, hsig⟩, n, hn, hdir⟩ := A.directory
    obtain ⟨ts, hts⟩ := (ok_tables (d := d) n 12 []).2 hdir
    obtain ⟨hx, hhead⟩ := (ok_head hn hd hts).2 A.head
    obtain ⟨yx, hhhea⟩ := (ok_hhea hn hd hts).2 A.hhea
    obtain ⟨p, l, q, m, nh, g, w1, w2, w3, w4, w5, w6⟩ := A.widths
    obtain ⟨p', l', v1, v2⟩ := hhea_iff hn hd hts hhhea
    obtain ⟨rfl, rfl⟩ := HasTable_fun hd w1 v1
    have e := U16_fun w2 v2
    obtain ⟨ws, hws⟩ := (ok_hmtxTable hn hd hts (nHM := yx.2.2) (nG := g)).2 (by rw [← e]; exact ⟨w5, q, m, w3, w6⟩)
    have hmaxp := (maxp_iff hn hd hts).2 w4
    obtain ⟨cmx, hcm⟩ : Ok (parseCmap d ts) := by
      unfold parseCmap
      rw [ok_seek hn hd hts]
      obtain ⟨c, cl, rest⟩ := A.cmap
      obtain ⟨_, ht, -⟩ := rest
      exact ⟨c, cl, ht, (ok_cmap hsize hd ht).2 A.cmap⟩
    obtain ⟨loca, hloca⟩ := (ok_loca hn hd hts hhead).2 A.loca
    have hf : parseFont d = .ok ⟨d, ts, hx.1, hx.2 == 0, yx.1, yx.2.1, yx.2.2, g, ws, cmx, loca⟩ := by
      unfold parseFont
      rw [if_neg (by simpa using hsig.symm)]
      simp only [bind_ok, pure_ok]
      exact ⟨n, u16_ok.2 hn, ts, hts, hx, hhead, yx, hhhea, g, hmaxp, ws, hws, cmx, hcm, loca, hloca, rfl⟩
    obtain ⟨box, hbox⟩ := (ok_box hn hd hts).2 (by obtain ⟨p, l, t, _, hl⟩ := A.head; exact ⟨p, l, t, by omega⟩)
    obtain ⟨name, hname⟩ := (ok_name hn hd hts).2 A.name
    obtain ⟨os2, hos⟩ := (ok_os2 hn hd hts yx.1).2 A.os2
    obtain ⟨post, hpost⟩ := (ok_post hn hd hts).2 A.post
    unfold load
    rw [ok_bind]; refine ⟨_, hf, ?_⟩
    rw [ok_bind]; refine ⟨_, hbox, ?_⟩
    rw [ok_bind]; refine ⟨_, hname, ?_⟩
    rw [ok_bind]; refine ⟨_, hos, ?_⟩
    rw [ok_bind]; refine ⟨_, hpost, ?_⟩
    cases k with
    | false => simp only [ok_bind, Bool.false_eq_true, if_false]; exact ⟨none, rfl, _, rfl⟩
    | true =>
      obtain ⟨kt, hk⟩ := (ok_kern hn hd hts).2 (A.kerning rfl)
      simp only [ok_bind, if_true]
      exact ⟨kt, hk, _, rfl⟩

end Verif.Embed
