import Verif.Lemmas.Embed.Accept
/-
When the parser of font files panics.
-/
namespace Verif.Embed
open Verif.TTF Verif.CmapSpec Verif.FontFile Verif.Typeset

/-- No run-time panic. -/
def Safe {α : Type} (r : Res α) : Prop := r ≠ .error .panic

theorem safe_bind {α β : Type} {x : Res α} {f : α → Res β} (h : Safe x) (hf : ∀ a, x = .ok a → Safe (f a)) : Safe (x >>= f) := by
  cases x with
  | error e => exact fun h' => h (by simpa [bind, Except.bind] using h')
  | ok a => exact hf a rfl

theorem safe_pure {α : Type} {a : α} : Safe (pure a : Res α) := by simp [Safe, pure, Except.pure]
theorem safe_ok {α : Type} {a : α} : Safe (.ok a : Res α) := by simp [Safe]
theorem safe_throw {α : Type} : Safe (throw .err : Res α) := by simp [Safe, throw, throwThe, MonadExceptOf.throw]
theorem safe_err {α : Type} : Safe (.error .err : Res α) := by simp [Safe]

theorem safe_u16 {d : Bytes} {p : Nat} : Safe (u16 d p) := by unfold u16; split <;> simp [Safe]
theorem safe_u32 {d : Bytes} {p : Nat} : Safe (u32 d p) := by unfold u32; split <;> simp [Safe]
theorem safe_i16 {d : Bytes} {p : Nat} : Safe (i16 d p) := by
  unfold i16
  exact safe_bind safe_u16 fun a _ => by split <;> exact safe_pure
theorem safe_seek {ts : List (Bytes × Table)} {tag : String} : Safe (seek ts tag) := by unfold seek; split <;> simp [Safe]
theorem safe_readBytes {d : Bytes} {p n : Nat} : Safe (readBytes d p n) := by unfold readBytes; split <;> [simp [Safe]; (split <;> simp [Safe])]

/-- One step of a proof that a chain of reads does not panic. -/
macro "safe" : tactic => `(tactic| repeat first
  | exact safe_pure | exact safe_ok | exact safe_throw | exact safe_err | exact safe_u16 | exact safe_u32 | exact safe_i16 | exact safe_seek
  | exact safe_readBytes | refine safe_bind ?_ fun _ _ => ?_ | split | assumption)

theorem safe_u16s {d : Bytes} : ∀ (k p : Nat), Safe (u16s d p k)
  | 0, _ => by unfold u16s; safe
  | k + 1, p => by have := safe_u16s (d := d) k (p + 2); unfold u16s; safe
theorem safe_u32s {d : Bytes} : ∀ (k p : Nat), Safe (u32s d p k)
  | 0, _ => by unfold u32s; safe
  | k + 1, p => by have := safe_u32s (d := d) k (p + 4); unfold u32s; safe
theorem safe_hmtx {d : Bytes} : ∀ (k p : Nat), Safe (hmtxWidths d p k)
  | 0, _ => by unfold hmtxWidths; safe
  | k + 1, p => by have := safe_hmtx (d := d) k (p + 4); unfold hmtxWidths; safe
theorem safe_groups {d : Bytes} : ∀ (k p : Nat), Safe (TTF.groups d p k)
  | 0, _ => by unfold TTF.groups; safe
  | k + 1, p => by have := safe_groups (d := d) k (p + 12); unfold TTF.groups; safe
theorem safe_tables {d : Bytes} : ∀ (k p : Nat) (acc : List (Bytes × Table)), Safe (readTables d p k acc)
  | 0, _, _ => by unfold readTables; safe
  | k + 1, p, acc => by
    have h := fun acc => safe_tables (d := d) k (p + 16) acc
    unfold readTables
    split
    · exact safe_bind safe_throw fun _ _ => safe_bind safe_u32 fun _ _ => safe_bind safe_u32 fun _ _ => safe_bind safe_u32 fun _ _ => h _
    · exact safe_bind safe_u32 fun _ _ => safe_bind safe_u32 fun _ _ => safe_bind safe_u32 fun _ _ => h _
theorem safe_offset31 {d : Bytes} : ∀ (k p acc : Nat), Safe (offset31 d p k acc)
  | 0, _, _ => by unfold offset31; safe
  | k + 1, p, acc => by
    have h := fun acc => safe_offset31 (d := d) k (p + 8) acc
    unfold offset31
    exact safe_bind safe_u16 fun _ _ => safe_bind safe_u16 fun _ _ => safe_bind safe_u32 fun _ _ => h _
theorem safe_offset310 {d : Bytes} : ∀ (k p : Nat), Safe (offset310 d p k)
  | 0, _ => by unfold offset310; safe
  | k + 1, p => by have := safe_offset310 (d := d) k (p + 8); unfold offset310; safe
theorem safe_segChars {d : Bytes} {ro dl : Nat} : ∀ (n pos c : Nat), Safe (segChars d ro dl pos c n)
  | 0, _, _ => by unfold segChars; safe
  | n + 1, pos, c => by
    have := safe_segChars (d := d) (ro := ro) (dl := dl) n (pos + 2) (c + 1)
    unfold segChars
    safe
theorem safe_allChars {d : Bytes} {roff : Nat} : ∀ (l : List (Nat × Nat × Nat × Nat)) (i : Nat), Safe (allChars d roff i l)
  | [], _ => by unfold allChars; safe
  | (c1, c2, dl, ro) :: rest, i => by
    have := safe_allChars (d := d) (roff := roff) rest (i + 1)
    unfold allChars
    exact safe_bind (safe_segChars _ _ _) fun _ _ => safe_bind this fun _ _ => safe_pure
theorem safe_nameLoop {d : Bytes} {st : Nat} : ∀ (k p : Nat), Safe (nameLoop d st p k)
  | 0, _ => by unfold nameLoop; safe
  | k + 1, p => by have := safe_nameLoop (d := d) (st := st) k (p + 12); unfold nameLoop; safe
theorem safe_kernPairs {d : Bytes} : ∀ (k p : Nat) acc, Safe (kernPairs d p k acc)
  | 0, _, _ => by unfold kernPairs; safe
  | k + 1, p, acc => by
    have h := fun acc => safe_kernPairs (d := d) k (p + 6) acc
    unfold kernPairs
    exact safe_bind safe_u16 fun _ _ => safe_bind safe_u16 fun _ _ => safe_bind safe_i16 fun _ _ => h _
theorem safe_kernTables {d : Bytes} : ∀ (k p : Nat) acc, Safe (kernTables d p k acc)
  | 0, _, _ => by unfold kernTables; safe
  | k + 1, p, acc => by
    have h := fun p acc => safe_kernTables (d := d) k p acc
    unfold kernTables
    refine safe_bind safe_u16 fun _ _ => ?_
    split
    · exact safe_bind safe_throw fun _ _ => safe_bind safe_u16 fun _ _ => safe_bind (safe_kernPairs _ _ _) fun _ _ => h _ _
    · exact safe_bind safe_u16 fun _ _ => safe_bind (safe_kernPairs _ _ _) fun _ _ => h _ _

theorem safe_head {d : Bytes} {ts : List (Bytes × Table)} : Safe (parseHead d ts) := by unfold parseHead; safe
theorem safe_hhea {d : Bytes} {ts : List (Bytes × Table)} : Safe (parseHhea d ts) := by unfold parseHhea; safe
theorem safe_maxp {d : Bytes} {ts : List (Bytes × Table)} : Safe (parseMaxp d ts) := by unfold parseMaxp; safe
theorem safe_box {d : Bytes} {ts : List (Bytes × Table)} : Safe (parseBox d ts) := by unfold parseBox; safe
theorem safe_post {d : Bytes} {ts : List (Bytes × Table)} : Safe (parsePost d ts) := by unfold parsePost; safe
theorem safe_os2 {d : Bytes} {ts : List (Bytes × Table)} {asc : Int} : Safe (parseOS2 d ts asc) := by unfold parseOS2; safe
theorem safe_name {d : Bytes} {ts : List (Bytes × Table)} : Safe (parseName d ts) := by
  unfold parseName
  refine safe_bind safe_seek fun _ _ => safe_bind safe_u16 fun _ _ => safe_bind safe_u16 fun _ _ => safe_bind (safe_nameLoop _ _) fun _ _ => ?_
  safe
theorem safe_kern {d : Bytes} {ts : List (Bytes × Table)} : Safe (parseKern d ts) := by
  unfold parseKern
  split
  · exact safe_ok
  · exact safe_bind safe_u16 fun _ _ => safe_bind safe_u16 fun _ _ => safe_bind (safe_kernTables _ _ _) fun _ _ => safe_pure
theorem safe_loca {d : Bytes} {ts : List (Bytes × Table)} {b : Bool} : Safe (parseLoca d ts b) := by
  unfold parseLoca
  split
  · exact safe_err
  · split
    · exact safe_bind (safe_u16s _ _) fun _ _ => safe_pure
    · exact safe_u32s _ _
theorem safe_cmap4 {d : Bytes} {b : Nat} : Safe (parseCmap4 d b) := by
  unfold parseCmap4
  refine safe_bind safe_u16 fun _ _ => ?_
  have rest : ∀ sc gc : Nat → Nat, Safe (do
      let length ← u16 d (b + 2)
      let segX2 ← u16 d (b + 6)
      let ec ← u16s d (b + 14) (segX2 / 2)
      let st ← u16s d (b + 16 + 2 * (segX2 / 2)) (segX2 / 2)
      let dl ← u16s d (b + 16 + 4 * (segX2 / 2)) (segX2 / 2)
      let ro ← u16s d (b + 16 + 6 * (segX2 / 2)) (segX2 / 2)
      let ga ← u16s d (b + 16 + 8 * (segX2 / 2)) ((if 16 + 8 * (segX2 / 2) ≤ length then length - (16 + 8 * (segX2 / 2)) else 2 ^ 64 + length - (16 + 8 * (segX2 / 2))) / 2)
      pure (⟨segX2 / 2, ec, st, dl, ro, ga⟩ : Cmap4)) := by
    intro _ _
    exact safe_bind safe_u16 fun _ _ => safe_bind safe_u16 fun _ _ => safe_bind (safe_u16s _ _) fun _ _ => safe_bind (safe_u16s _ _) fun _ _ =>
      safe_bind (safe_u16s _ _) fun _ _ => safe_bind (safe_u16s _ _) fun _ _ => safe_bind (safe_u16s _ _) fun _ _ => safe_pure
  split
  · exact safe_bind safe_throw fun _ _ => rest id id
  · exact rest id id
theorem safe_cmap12 {d : Bytes} {cm : Nat} : Safe (parseCmap12 d cm) := by
  unfold parseCmap12
  refine safe_bind safe_u16 fun _ _ => safe_bind (safe_offset310 _ _) fun r _ => ?_
  cases r with
  | none => exact safe_pure
  | some off =>
    have last : Safe (do
        let ng ← u32 d (cm + off + 12)
        TTF.groups d (cm + off + 16) ng) := safe_bind safe_u32 fun _ _ => safe_groups _ _
    have mid : Safe (do
        let reserved ← u16 d (cm + off + 2)
        if reserved ≠ 0 then throw .err
        let ng ← u32 d (cm + off + 12)
        TTF.groups d (cm + off + 16) ng) := by
      refine safe_bind safe_u16 fun _ _ => ?_
      split
      · exact safe_bind safe_throw fun _ _ => last
      · exact last
    refine safe_bind safe_u16 fun _ _ => ?_
    split
    · exact safe_bind safe_throw fun _ _ => mid
    · exact mid
theorem safe_cmap {d : Bytes} {ts : List (Bytes × Table)} : Safe (parseCmap d ts) := by
  unfold parseCmap
  refine safe_bind safe_seek fun _ _ => ?_
  unfold parseCmapAt
  refine safe_bind safe_u16 fun _ _ => safe_bind (safe_offset31 _ _ _) fun _ _ => ?_
  split
  · exact safe_bind safe_throw fun _ _ => safe_bind safe_cmap4 fun _ _ => safe_bind (safe_allChars _ _) fun _ _ => safe_bind safe_cmap12 fun _ _ => safe_pure
  · exact safe_bind safe_cmap4 fun _ _ => safe_bind (safe_allChars _ _) fun _ _ => safe_bind safe_cmap12 fun _ _ => safe_pure
theorem safe_hmtxTable {d : Bytes} {ts : List (Bytes × Table)} {nHM nG : Nat} (h : nHM = 0 → nG = 0) : Safe (parseHmtx d ts nHM nG) := by
  unfold parseHmtx
  refine safe_bind safe_seek fun _ _ => safe_bind (safe_hmtx _ _) fun _ _ => ?_
  split
  · cases nHM with
    | zero => omega
    | succ n => exact safe_pure
  · exact safe_pure

/-- `ParseFontData` panics only if `hhea` announces no advance width at all, and the font has glyphs. -/
theorem safe_load {d : Bytes} {k : Bool} (hd : DistinctTags d)
    (h : ∀ p l g, HasTable d (lit "hhea") p l → U16 d (p + 34) 0 → NumGlyphs d g → g = 0) : Safe (load d k) := by
  have hp : Safe (parseFont d) := by
    unfold parseFont
    have rest : Safe (do
        let n ← u16 d 4
        let ts ← readTables d 12 n []
        let (upem, fmt) ← parseHead d ts
        let (asc, desc, nHM) ← parseHhea d ts
        let nG ← parseMaxp d ts
        let ws ← parseHmtx d ts nHM nG
        let cm ← parseCmap d ts
        let short := fmt == 0
        let loca ← parseLoca d ts short
        pure (⟨d, ts, upem, short, asc, desc, nHM, nG, ws, cm, loca⟩ : Font)) := by
      refine safe_bind safe_u16 fun n hn => safe_bind (safe_tables _ _ _) fun ts hts => safe_bind safe_head fun hx _ =>
        safe_bind safe_hhea fun yx hhea => safe_bind safe_maxp fun g hg => ?_
      rw [u16_ok] at hn
      refine safe_bind (safe_hmtxTable ?_) fun _ _ => safe_bind safe_cmap fun _ _ => safe_bind safe_loca fun _ _ => safe_pure
      intro h0
      obtain ⟨p, l, a, b⟩ := hhea_iff hn hd hts hhea
      rw [h0] at b
      exact h p l g a b ((maxp_iff hn hd hts).1 hg)
    split
    · exact safe_bind safe_throw fun _ _ => rest
    · exact rest
  unfold load
  refine safe_bind hp fun _ _ => safe_bind safe_box fun _ _ => safe_bind safe_name fun _ _ => safe_bind safe_os2 fun _ _ => safe_bind safe_post fun _ _ => ?_
  cases k
  · exact safe_bind safe_pure fun _ _ => safe_pure
  · exact safe_bind safe_kern fun _ _ => safe_pure

end Verif.Embed
