import Verif.Lemmas.Embed.Glyf
import Verif.Spec.FontFile
namespace Verif.Embed
open Verif.TTF Verif.CmapSpec Verif.FontFile

theorem readU_ok {d : Bytes} {p n : Nat} : readU d p = .ok n ↔ U16 d p n := by
  unfold readU
  rw [← u16_ok]
  cases u16 d p <;> simp

theorem componentArgs_eq {fl : Nat} (h : fl.testBit 7 = true → fl.testBit 3 = false ∧ fl.testBit 6 = false) :
    componentArgs fl = argBytes fl := by
  unfold componentArgs argBytes
  cases h3 : fl.testBit 3 <;> cases h6 : fl.testBit 6 <;> cases h7 : fl.testBit 7 <;> simp_all

theorem componentsLoop_spec {d : Bytes} : ∀ (fuel off : Nat) (arr arr' : List Nat), PlainScales d off →
    componentsLoop d fuel off arr = .ok arr' →
    arr <+: arr' ∧ (∀ c, InRecords d off c → c ∈ arr') ∧ ∀ c ∈ arr', c ∈ arr ∨ InRecords d off c := by
  intro fuel
  induction fuel with
  | zero => intro off arr arr' _ h; simp [componentsLoop] at h
  | succ fuel ih =>
    intro off arr arr' hp h
    simp only [componentsLoop, bind_ok] at h
    obtain ⟨fl, hfl, c, hc, h⟩ := h
    rw [readU_ok] at hfl hc
    have e := componentArgs_eq (hp off fl (.here off) hfl)
    have hpre : arr <+: (if arr.contains c then arr else arr ++ [c]) := by
      split
      · exact List.prefix_refl _
      · exact List.prefix_append _ _
    have hmem : c ∈ (if arr.contains c then arr else arr ++ [c]) := by
      split
      · next hh => simpa using hh
      · simp
    have hback : ∀ x ∈ (if arr.contains c then arr else arr ++ [c]), x ∈ arr ∨ x = c := by
      intro x hx
      split at hx
      · exact .inl hx
      · simpa using hx
    generalize (if arr.contains c then arr else arr ++ [c]) = arr1 at *
    split at h
    · next hmore =>
      rw [e] at h
      obtain ⟨i1, i2, i3⟩ := ih _ _ _ (fun off' fl' hr => hp off' fl' (.next hfl hmore hr)) h
      refine ⟨hpre.trans i1, ?_, ?_⟩
      · intro x hx
        cases hx with
        | here h1 h2 =>
          rw [U16_fun h2 hc]; exact i1.subset hmem
        | next h1 h2 h3 =>
          rw [U16_fun h1 hfl] at h3
          exact i2 x h3
      · intro x hx
        rcases i3 x hx with hx | hx
        · rcases hback x hx with hx | rfl
          · exact .inl hx
          · exact .inr (.here hfl hc)
        · exact .inr (.next hfl hmore hx)
    · next hmore =>
      rw [pure_ok] at h
      subst h
      refine ⟨hpre, ?_, ?_⟩
      · intro x hx
        cases hx with
        | here h1 h2 => rw [U16_fun h2 hc]; exact hmem
        | next h1 h2 h3 => rw [U16_fun h1 hfl] at h2; exact (hmore h2).elim
      · intro x hx
        rcases hback x hx with hx | rfl
        · exact .inl hx
        · exact .inr (.here hfl hc)

/-- Offset of the `glyf` table. -/
def glyfBase (f : Font) : Nat := ((tableOf f.tables (lit "glyf")).getD ⟨0, 0, 0⟩).offset

/-- Component of a glyph, in terms of the parsed font. -/
def Component' (f : Font) (g c : Nat) : Prop :=
  ∃ a b n, f.loca[g]? = some a ∧ f.loca[g + 1]? = some b ∧ a ≠ b ∧ U16 f.data (glyfBase f + a) n ∧ 0x8000 ≤ n ∧
    InRecords f.data (glyfBase f + a + 10) c

/-- Scale flags of all component records of a glyph are plain. -/
def PlainGlyph (f : Font) (g : Nat) : Prop :=
  ∀ a n, f.loca[g]? = some a → U16 f.data (glyfBase f + a) n → 0x8000 ≤ n → PlainScales f.data (glyfBase f + a + 10)

theorem glyphOffset_ok {f : Font} {g n : Nat} (h : glyphOffset f g = .ok n) :
    ∃ a, f.loca[g]? = some a ∧ n = glyfBase f + a := by
  unfold glyphOffset at h
  split at h
  · cases h
  · next a ha => cases h; exact ⟨a, ha, rfl⟩

theorem addComposite_spec {f : Font} {arr arr' : List Nat} {g : Nat} (hp : PlainGlyph f g)
    (h : addComposite f arr g = .ok arr') :
    arr <+: arr' ∧ (∀ c, Component' f g c → c ∈ arr') ∧ ∀ c ∈ arr', c ∈ arr ∨ Component' f g c := by
  unfold addComposite at h
  simp only [bind_ok] at h
  obtain ⟨s, hs, t, ht, h⟩ := h
  obtain ⟨a, ha, rfl⟩ := glyphOffset_ok hs
  obtain ⟨b, hb, rfl⟩ := glyphOffset_ok ht
  have none_of : (∀ c, ¬ Component' f g c) → arr' = arr →
      arr <+: arr' ∧ (∀ c, Component' f g c → c ∈ arr') ∧ ∀ c ∈ arr', c ∈ arr ∨ Component' f g c := by
    rintro hno rfl
    exact ⟨List.prefix_refl _, fun c hc => (hno c hc).elim, fun c hc => .inl hc⟩
  split at h
  · next heq =>
    rw [pure_ok] at h
    refine none_of ?_ h.symm
    rintro c ⟨a', b', n, ha', hb', hne, -⟩
    rw [ha] at ha'; rw [hb] at hb'; cases ha'; cases hb'
    omega
  · next hne =>
    simp only [bind_ok] at h
    obtain ⟨n, hn, h⟩ := h
    rw [readU_ok] at hn
    split at h
    · next hlt =>
      rw [pure_ok] at h
      refine none_of ?_ h.symm
      rintro c ⟨a', b', n', ha', hb', _, hn', hge, -⟩
      rw [ha] at ha'; cases ha'
      rw [U16_fun hn' hn] at hge
      omega
    · next hge =>
      obtain ⟨i1, i2, i3⟩ := componentsLoop_spec _ _ _ _ (hp a n ha hn (by omega)) h
      refine ⟨i1, ?_, ?_⟩
      · rintro c ⟨a', b', n', ha', hb', _, hn', _, hr⟩
        rw [ha] at ha'; cases ha'
        exact i2 c hr
      · intro c hc
        rcases i3 c hc with hc | hc
        · exact .inl hc
        · exact .inr ⟨a, b, n, ha, hb, fun e => hne (by rw [e]), hn, by omega, hc⟩

theorem closureLoop_spec {f : Font} : ∀ {gs arr arr' : List Nat}, (∀ g ∈ gs, PlainGlyph f g) →
    closureLoop f gs arr = .ok arr' →
    arr <+: arr' ∧ (∀ g ∈ gs, ∀ c, Component' f g c → c ∈ arr') ∧
      ∀ c ∈ arr', c ∈ arr ∨ ∃ g ∈ gs, Component' f g c := by
  intro gs
  induction gs with
  | nil => intro arr arr' _ h; simp [closureLoop] at h; subst h; simp
  | cons g gs ih =>
    intro arr arr' hp h
    simp only [closureLoop, bind_ok] at h
    obtain ⟨arr1, h1, h2⟩ := h
    obtain ⟨a1, a2, a3⟩ := addComposite_spec (hp g (by simp)) h1
    obtain ⟨b1, b2, b3⟩ := ih (fun x hx => hp x (by simp [hx])) h2
    refine ⟨a1.trans b1, ?_, ?_⟩
    · intro x hx c hc
      rcases List.mem_cons.1 hx with rfl | hx
      · exact b1.subset (a2 c hc)
      · exact b2 x hx c hc
    · intro c hc
      rcases b3 c hc with hc | ⟨x, hx, hc⟩
      · rcases a3 c hc with hc | hc
        · exact .inl hc
        · exact .inr ⟨g, by simp, hc⟩
      · exact .inr ⟨x, by simp [hx], hc⟩

/-- The glyphs embedded: those drawn, glyph 0, and the direct components of those drawn. -/
theorem closure_spec {f : Font} {vals arr : List Nat} (hp : ∀ g ∈ vals, PlainGlyph f g)
    (h : closure f vals = .ok arr) (x : Nat) :
    x ∈ arr ↔ x ∈ vals ∨ x = 0 ∨ ∃ g ∈ vals, Component' f g x := by
  obtain ⟨h1, h2, h3⟩ := closureLoop_spec hp h
  have hm : ∀ y, y ∈ (if vals.contains 0 then vals else vals ++ [0]) ↔ y ∈ vals ∨ y = 0 := by
    intro y
    split
    · next hc =>
      have : 0 ∈ vals := by simpa using hc
      constructor
      · exact .inl
      · rintro (h | rfl)
        · exact h
        · exact this
    · simp
  constructor
  · intro hx
    rcases h3 x hx with hx | hx
    · rcases (hm x).1 hx with hx | hx
      · exact .inl hx
      · exact .inr (.inl hx)
    · exact .inr (.inr hx)
  · rintro (hx | hx | ⟨g, hg, hx⟩)
    · exact h1.subset ((hm x).2 (.inl hx))
    · exact h1.subset ((hm x).2 (.inr hx))
    · exact h2 g hg x hx

end Verif.Embed
