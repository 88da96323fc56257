import Verif.Model.Reader
namespace Verif.Reader

theorem bufRead_reads {D : Type} (compile : D → Bytes × D) (ks : List Nat) (hk : ∀ k ∈ ks, 0 < k) :
    ∀ (g : Gp D), g.alloc = true →
      (reads compile g ks).1.flatMap ReadRes.bytes = g.unread.take ks.sum ∧
      (reads compile g ks).2 = { g with unread := g.unread.drop ks.sum } ∧
      (reads compile g ks).1.length = ks.length ∧
      ∀ i (_ : i < ks.length), ((reads compile g ks).1[i]? = some .eof ↔ g.unread.length ≤ (ks.take i).sum) := by
  induction ks with
  | nil => intro g _; simp [reads]
  | cons k ks ih =>
    intro g hg
    have hk0 : 0 < k := hk k (by simp)
    have hr : Reader.read compile g k = bufRead g k := by simp [Reader.read, hg]
    by_cases hu : g.unread = []
    · have hb : bufRead g k = (.eof, g) := by simp [bufRead, hu]; omega
      have := ih (fun k hk' => hk k (by simp [hk'])) g hg
      simp only [reads, hr, hb]
      refine ⟨?_, ?_, ?_, ?_⟩
      · simp [ReadRes.bytes, this.1, hu]
      · rw [this.2.1, hu]; simp
      · simp [this.2.2.1]
      · intro i hi
        cases i with
        | zero => simp [hu]
        | succ i =>
          have := this.2.2.2 i (by simpa using hi)
          simp [this, hu]
    · have hb : bufRead g k = (.data (g.unread.take k), { g with unread := g.unread.drop k }) := by
        simp [bufRead, hu]
      have := ih (fun k hk' => hk k (by simp [hk'])) { g with unread := g.unread.drop k } hg
      simp only [reads, hr, hb]
      refine ⟨?_, ?_, ?_, ?_⟩
      · simp [ReadRes.bytes, this.1, List.take_add]
      · rw [this.2.1]; simp [List.drop_drop]
      · simp [this.2.2.1]
      · intro i hi
        cases i with
        | zero => simp [hu]
        | succ i =>
          have := this.2.2.2 i (by simpa using hi)
          simp [this]
          omega

end Verif.Reader
