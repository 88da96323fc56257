import Verif.Spec.MapFile
import Verif.Lemmas.FontMaker
/- Reading map files. -/
namespace Verif.FontMaker
open MapFile

theorem hexDigit_ok {b : UInt8} {v : Nat} (h : HexDigit b v) : hexDigit b = some v ∧ b ≠ 32 := by
  simp only [HexDigit, UInt8.le_iff_toNat_le] at h
  simp only [hexDigit, UInt8.le_iff_toNat_le, ne_eq, ← UInt8.toNat_inj]
  simp only [show UInt8.toNat 48 = 48 from rfl, show UInt8.toNat 57 = 57 from rfl, show UInt8.toNat 65 = 65 from rfl,
    show UInt8.toNat 70 = 70 from rfl, show UInt8.toNat 97 = 97 from rfl, show UInt8.toNat 102 = 102 from rfl,
    show UInt8.toNat 32 = 32 from rfl] at h ⊢
  refine ⟨?_, by omega⟩
  rcases h with ⟨h1, h2, rfl⟩ | ⟨h1, h2, rfl⟩ | ⟨h1, h2, rfl⟩
  · rw [if_pos ⟨h1, h2⟩]
  · rw [if_neg (by omega), if_pos ⟨h1, h2⟩]
  · rw [if_neg (by omega), if_neg (by omega), if_pos ⟨h1, h2⟩]

theorem hex_ok {s : Bytes} {n : Nat} (h : Hex s n) : s ≠ [] ∧ (∀ b ∈ s, b ≠ 32) ∧
    s.foldlM (fun n b => (hexDigit b).map (16 * n + ·)) 0 = some n := by
  induction h with
  | one h => obtain ⟨h1, h2⟩ := hexDigit_ok h; simp [h1, h2]
  | more _ h ih =>
    obtain ⟨i1, i2, i3⟩ := ih
    obtain ⟨h1, h2⟩ := hexDigit_ok h
    refine ⟨by simp, ?_, ?_⟩
    · intro b hb
      simp at hb
      rcases hb with hb | rfl
      · exact i2 b hb
      · exact h2
    · rw [List.foldlM_append, i3]
      simp [h1]

theorem parseHex_ok {s : Bytes} {n : Nat} (h : Hex s n) : parseHex s = some n := by
  obtain ⟨h1, _, h3⟩ := hex_ok h
  rw [parseHex, if_neg h1, h3]

theorem split_word {w : Bytes} (hw : ∀ b ∈ w, b ≠ 32) : splitSpace w = [w] := by
  induction w with
  | nil => rfl
  | cons b w ih => rw [splitSpace, if_neg (hw b (by simp)), ih (fun x hx => hw x (by simp [hx]))]

theorem split_cons {w r : Bytes} (hw : ∀ b ∈ w, b ≠ 32) : splitSpace (w ++ 32 :: r) = w :: splitSpace r := by
  induction w with
  | nil => simp [splitSpace]
  | cons b w ih => rw [List.cons_append, splitSpace, if_neg (hw b (by simp)), ih (fun x hx => hw x (by simp [hx]))]

theorem trim_line {t : Bytes} (h : Tight t) : trim t = t := by
  obtain ⟨⟨a, u, rfl, ha⟩, u', z, hz, hz'⟩ := h
  unfold trim
  rw [List.dropWhile_cons, if_neg (by simp [ha]), hz]
  simp [List.dropWhile_cons, hz']

theorem loadLine_ok {l : Bytes} {e : Entry} (h : Line l e) {maps : List FontMap} (hm : maps.length = 256) :
    loadLine maps l = .ok (maps.set e.code ⟨e.char, e.name⟩) := by
  obtain ⟨hc, hu, h1, h2, h3, h4, rfl⟩ := h
  obtain ⟨c1, c2, c3⟩ := hex_ok h1
  obtain ⟨u1, u2, u3⟩ := hex_ok h2
  have hn : ∀ b ∈ e.name, b ≠ 32 := fun b hb => by
    have := (h4.2 b hb).1
    simp only [UInt8.le_iff_toNat_le, show UInt8.toNat 33 = 33 from rfl] at this
    rw [ne_eq, ← UInt8.toNat_inj, show UInt8.toNat 32 = 32 from rfl]
    omega
  have e1 : lit "!" = [33] := rfl
  have e2 : lit " U+" = [32, 85, 43] := rfl
  have e3 : lit " " = [32] := rfl
  have hT : Tight (lit "!" ++ hc ++ lit " U+" ++ hu ++ lit " " ++ e.name) := by
    refine tight_append ⟨33, hc ++ lit " U+" ++ hu ++ lit " ", by simp [e1], rfl⟩ ?_
    exact ⟨e.name.dropLast, e.name.getLast h4.1, (List.dropLast_append_getLast h4.1).symm,
      name_space (h4.2 _ (List.getLast_mem h4.1)).1⟩
  have hs : splitSpace (lit "!" ++ hc ++ lit " U+" ++ hu ++ lit " " ++ e.name) = [33 :: hc, 85 :: 43 :: hu, e.name] := by
    have : lit "!" ++ hc ++ lit " U+" ++ hu ++ lit " " ++ e.name = (33 :: hc) ++ 32 :: ((85 :: 43 :: hu) ++ 32 :: e.name) := by
      simp [e1, e2, e3]
    rw [this, split_cons, split_cons, split_word hn]
    · intro b hb; simp at hb; rcases hb with rfl | rfl | hb <;> [decide; decide; exact u2 b hb]
    · intro b hb; simp at hb; rcases hb with rfl | hb <;> [decide; exact c2 b hb]
  unfold loadLine
  rw [trim_line hT, hs]
  simp [parseHex_ok h1, parseHex_ok h2, hm, h3]

theorem entry_append (es : List Entry) (e : Entry) (c : Nat) : entry (es ++ [e]) c = if e.code = c then some e else entry es c := by
  simp [entry, List.find?_cons]
  split <;> simp_all

/-- A table that holds what the lines read so far say. -/
def Holds (maps : List FontMap) (es : List Entry) : Prop :=
  maps.length = 256 ∧ ∀ c, c < 256 → maps[c]? = some (match entry es c with | some e => ⟨e.char, e.name⟩ | none => notdef)

theorem loadLines_ok {ls : List Bytes} {es : List Entry} (h : Lines ls es) : ∀ (maps : List FontMap) (pre : List Entry), Holds maps pre →
    ∃ maps', loadLines maps ls = .ok maps' ∧ Holds maps' (pre ++ es) := by
  induction h with
  | nil => intro maps pre hm; exact ⟨maps, rfl, by simpa using hm⟩
  | @cons l e ls es hl _ ih =>
    intro maps pre hm
    obtain ⟨maps', h1, h2⟩ := ih (maps.set e.code ⟨e.char, e.name⟩) (pre ++ [e]) (by
      refine ⟨by simpa using hm.1, fun c hc => ?_⟩
      rw [List.getElem?_set, entry_append]
      split
      · rename_i h; rw [if_pos (by rw [hm.1]; omega)]
      · exact hm.2 c hc)
    refine ⟨maps', ?_, by simpa using h2⟩
    rw [loadLines, loadLine_ok hl hm.1]
    exact h1

end Verif.FontMaker
