import Verif.Lemmas.Embed.Total
/-
Embedding a complete font file does not fail (property C27).
-/
namespace Verif.Embed
open Verif.TTF Verif.CmapSpec Verif.FontFile

/-- **C27** For a font file that is well formed and complete, embedding any selection of its glyphs succeeds: no access
outside the file or outside the room made for the outlines, however many glyphs, components and tables there are. -/
theorem embedding_succeeds {d : Bytes} {f : Font} {vals : List Nat} {n : Nat} (hW : WellFormed d) (hC : Complete d)
    (hp : parseFont d = .ok f) (hn : NumGlyphs d n) (hv : ∀ g ∈ vals, g < n) : ∃ e, makeFont f vals = .ok e := by
  have hP := parseFont_ok hW.tags hp
  have := numGlyphs_unique hW.tags hn hP.glyphs; subst this
  obtain ⟨go, gl, hT, hle, hin⟩ := hW.glyf
  obtain ⟨s, hE⟩ := entry_of_table hT
  have ht := (hP.table (lit "glyf") ⟨s, go, gl⟩).2 hE
  have hbase : glyfBase f = go := by simp [glyfBase, ht]
  have hloca : ∀ g < f.nGlyphs, ∃ a b, f.loca[g]? = some a ∧ f.loca[g + 1]? = some b ∧ a ≤ b ∧ b ≤ gl := by
    intro g hg
    obtain ⟨a, ha⟩ := hW.entries _ hn g (by omega)
    obtain ⟨b, hb⟩ := hW.entries _ hn (g + 1) (by omega)
    exact ⟨a, b, (hP.loca _ _).2 ha, (hP.loca _ _).2 hb, hW.ascending g a b ha hb, hin _ _ hb⟩
  have hdata : ∀ g < f.nGlyphs, ∃ o, glyphData f g = .ok o ∧ glyphSize f g = .ok (o.length : Int) := by
    intro g hg
    obtain ⟨a, b, ha, hb, hab, hbl⟩ := hloca g hg
    have hsz : glyphSize f g = .ok ((b : Int) - (a : Int)) := by
      unfold glyphSize
      simp only [bind_ok]
      refine ⟨_, glyphOffset_some ha, _, glyphOffset_some hb, ?_⟩
      rw [pure_ok]; push_cast; omega
    have hgd : ∃ o, glyphData f g = .ok o := by
      unfold glyphData
      simp only [bind_ok]
      simp only [glyphOffset_some ha, glyphOffset_some hb]
      by_cases h : b ≤ a
      · exact ⟨[], _, rfl, _, rfl, by rw [if_pos (by omega), pure_ok]⟩
      · exact ⟨_, _, rfl, _, rfl, by rw [if_neg (by omega)]; exact slice_total (by rw [hP.data, hbase]; omega)⟩
    obtain ⟨o, ho⟩ := hgd
    obtain ⟨a', b', ha', hb', hlen, -⟩ := glyphData_len ho
    rw [ha] at ha'; rw [hb] at hb'; cases ha'; cases hb'
    exact ⟨o, ho, by rw [hsz, hlen]; congr 1; omega⟩
  have hcomp : ∀ g ∈ vals, ∀ arr, Ok (addComposite f arr g) := by
    intro g hg arr
    obtain ⟨a, b, ha, hb, -, -⟩ := hloca g (hv g hg)
    refine addComposite_total arr ha hb ?_ ?_
    · intro a n ha hn hge
      rw [hP.data, hbase] at hn ⊢
      exact hW.scales go gl g a n hT ((hP.loca _ _).1 ha) hn hge
    · intro hne
      rw [hP.data, hbase]
      exact hC.outlines go gl g a b hT ((hP.loca _ _).1 ha) ((hP.loca _ _).1 hb) hne
  obtain ⟨arr, harr⟩ := closureLoop_total vals (if vals.contains 0 then vals else vals ++ [0]) hcomp
  have hcl : closure f vals = .ok arr := harr
  have hlt : ∀ g ∈ arr, g < f.nGlyphs := by
    intro g hg
    rcases (copied_glyphs hW hP hcl g).1 hg with h | rfl | ⟨v, hv', h⟩
    · exact hv g h
    · exact hC.someGlyph _ hn
    · exact hC.components _ hn v g h
  obtain ⟨glyf, loca, hgl⟩ := makeGlyfLoca_total hcl hlt (fun g hg => hdata g (hlt g hg))
  have h4 : glyf.length % 4 = 0 := by obtain ⟨_, _, _, _, _, h, _⟩ := makeGlyfLoca_spec hgl; exact h
  have htab : ∀ t ∈ tags, Ok (tableData f glyf loca t) := by
    intro t ht
    apply tableData_total hP h4
    intro n1 n2
    simp only [tags, List.mem_cons, List.not_mem_nil, or_false] at ht
    have hc := hC.copied
    simp only [List.mem_cons, List.not_mem_nil, or_false, forall_eq_or_imp, forall_eq] at hc
    obtain ⟨c1, c2, c3, c4, c5, c6, c7⟩ := hc
    rcases ht with rfl | rfl | rfl | rfl | rfl | rfl | rfl | rfl | rfl
    · exact c1
    · exact c2
    · exact absurd rfl n1
    · exact c3
    · exact c4
    · exact c5
    · exact absurd rfl n2
    · exact c6
    · exact c7
  unfold makeFont
  simp only [bind_ok]
  obtain ⟨buff, hb⟩ := tablesLoop_total tags 0 (12 + 16 * 9) (((((Buff.mk 0 []).write (be32 0x00010000)).write (be16 9)).write (be16 (8 * 16))).write (be16 3) |>.write (be16 ((9 - 8) * 16))) htab
  exact ⟨buff.datas, _, hgl, _, hb, rfl⟩

/-! ### The demonstration font is complete -/

/-- A checker for `Records`, and for the components named being below `n`. -/
def recordsCheck (d : Bytes) (n : Nat) : Nat → Nat → Bool
  | 0, _ => false
  | fuel + 1, off =>
    match u16 d off, u16 d (off + 2) with
    | .ok fl, .ok c => decide (c < n) && (!fl.testBit 5 || recordsCheck d n fuel (off + 4 + argBytes fl))
    | _, _ => false

theorem recordsCheck_ok {d : Bytes} {n : Nat} : ∀ (fuel off : Nat), recordsCheck d n fuel off = true →
    Records d off ∧ ∀ c, InRecords d off c → c < n := by
  intro fuel
  induction fuel with
  | zero => intro off h; simp [recordsCheck] at h
  | succ fuel ih =>
    intro off h
    unfold recordsCheck at h
    split at h
    · next fl c hfl hc =>
      rw [u16_ok] at hfl hc
      simp only [Bool.and_eq_true, decide_eq_true_eq, Bool.or_eq_true, Bool.not_eq_true'] at h
      obtain ⟨hlt, h⟩ := h
      cases h5 : fl.testBit 5 with
      | false =>
        refine ⟨.last hfl hc h5, fun x hx => ?_⟩
        cases hx with
        | here _ h2 => rw [U16_fun h2 hc]; exact hlt
        | next h1 h2 _ => rw [U16_fun h1 hfl, h5] at h2; cases h2
      | true =>
        obtain ⟨i1, i2⟩ := ih _ (h.resolve_left (by rw [h5]; simp))
        refine ⟨.more hfl hc h5 i1, fun x hx => ?_⟩
        cases hx with
        | here _ h2 => rw [U16_fun h2 hc]; exact hlt
        | next h1 _ h3 => rw [U16_fun h1 hfl] at h3; exact i2 x h3
    · simp at h

/-- A checker for `Complete`. -/
def completeCheck (d : Bytes) (f : Font) : Bool :=
  decide (0 < f.nGlyphs) &&
  ["cvt ", "fpgm", "head", "hhea", "hmtx", "maxp", "prep"].all (fun tag =>
    match tableOf f.tables (lit tag) with
    | some t => decide (t.offset + pad4 t.length ≤ d.length)
    | none => true) &&
  (List.range f.loca.length).all (fun g =>
    match f.loca[g]?, f.loca[g + 1]? with
    | some a, some b => decide (a = b) ||
      (match u16 d (glyfBase f + a) with
        | .ok n => decide (n < 0x8000) || recordsCheck d f.nGlyphs 20 (glyfBase f + a + 10)
        | .error _ => false)
    | _, _ => true)

theorem complete_of_check {d : Bytes} {f : Font} (hD : DistinctTags d) (hP : Parsed d f) (h : completeCheck d f = true) :
    Complete d := by
  unfold completeCheck at h
  simp only [Bool.and_eq_true, decide_eq_true_eq, List.all_eq_true, List.mem_range] at h
  obtain ⟨⟨h1, h2⟩, h3⟩ := h
  have base : ∀ go gl, HasTable d (lit "glyf") go gl → glyfBase f = go := by
    intro go gl hT
    obtain ⟨s, hE⟩ := entry_of_table hT
    have ht := (hP.table (lit "glyf") ⟨s, go, gl⟩).2 hE
    simp [glyfBase, ht]
  have key : ∀ go gl g a b, HasTable d (lit "glyf") go gl → Loca d g a → Loca d (g + 1) b → a ≠ b →
      ∃ n, U16 d (go + a) n ∧ (0x8000 ≤ n → recordsCheck d f.nGlyphs 20 (go + a + 10) = true) := by
    intro go gl g a b hT ha hb hne
    have ha' := (hP.loca _ _).2 ha
    have hb' := (hP.loca _ _).2 hb
    have := h3 g (List.getElem?_eq_some_iff.1 ha').1
    rw [ha', hb', base go gl hT] at this
    simp only [Bool.or_eq_true, decide_eq_true_eq, hne, false_or] at this
    split at this
    · next n hn =>
      simp only [Bool.or_eq_true, decide_eq_true_eq] at this
      exact ⟨n, u16_ok.1 hn, fun hge => this.resolve_left (by omega)⟩
    · simp at this
  refine ⟨?_, ?_, ?_, ?_⟩
  · intro n hn; rw [numGlyphs_unique hD hn hP.glyphs]; exact h1
  · intro tag ht o l hT
    obtain ⟨s, hE⟩ := entry_of_table hT
    have := h2 tag ht
    rw [(hP.table (lit tag) ⟨s, o, l⟩).2 hE] at this
    simpa using this
  · intro go gl g a b hT ha hb hne
    obtain ⟨n, hn, hr⟩ := key go gl g a b hT ha hb hne
    exact ⟨n, hn, fun hge => (recordsCheck_ok _ _ (hr hge)).1⟩
  · rintro n hn g c ⟨go, gl, a, b, x, hT, ha, hb, hne, hx, hge, hr⟩
    rw [numGlyphs_unique hD hn hP.glyphs]
    obtain ⟨x', hx', hc⟩ := key go gl g a b hT ha hb hne
    rw [U16_fun hx hx'] at hge
    exact (recordsCheck_ok _ _ (hc hge)).2 c hr

theorem demo_complete : Complete demoFont :=
  complete_of_check demo_distinct (parseFont_ok demo_distinct demoParsed_ok) (by decide +kernel)

/-- The hypotheses of `embedding_succeeds` hold for the demonstration font: any selection of its five glyphs can be
embedded. -/
example (vals : List Nat) (h : ∀ g ∈ vals, g < 5) : ∃ e, makeFont demoParsed vals = .ok e := by
  have hP := parseFont_ok demo_distinct demoParsed_ok
  have hn : NumGlyphs demoFont 5 := by
    have := hP.glyphs
    rwa [show demoParsed.nGlyphs = 5 by decide +kernel] at this
  exact embedding_succeeds demo_wellFormed demo_complete demoParsed_ok hn h

end Verif.Embed
