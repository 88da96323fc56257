import Verif.Lemmas.Doc.Images
/- Which operations panic. -/
namespace Verif.Doc

def opFont : Op → Bool
  | .text _ | .cell _ _ => true
  | _ => false

def opPage : Op → Bool
  | .draw _ b => b
  | .drawTr _ _ | .text _ | .cell _ _ | .externalLink | .internalLink _ => true
  | .image _ img | .imageOpt _ img _ none => img.parsed.isSome
  | .imageOpt _ _ _ (some m) => m.1.parsed.isSome
  | _ => false

/-- Before the first page no picture is in the document. -/
def Bare (d : Doc) : Prop := d.curPage = none → d.imgs = []

theorem appendPaged_panic (d : Doc) (e : Entry) : (d.appendPaged e).2 = .panic ↔ d.curPage = none := by
  unfold Doc.appendPaged
  cases h : d.curPage <;> simp

theorem imageByHolder_panic {d : Doc} (h : Bare d) (tag : Nat) (img : Img) (gs : List Nat) (split : Bool) :
    (d.imageByHolder tag img gs split).2 = .panic ↔ img.parsed.isSome ∧ d.curPage = none := by
  unfold Doc.imageByHolder
  cases hi : assoc d.imgs img.id with
  | some i =>
    have hc : d.curPage ≠ none := fun hc => by rw [h hc] at hi; simp [assoc] at hi
    simp only [appendPaged_panic]
    simp [hc]
  | none =>
    cases hp : img.parsed with
    | none => simp
    | some ax =>
      obtain ⟨a, x⟩ := ax
      simp only [Option.isSome_some, true_and]
      have := appendPaged_panic (d.add (.image img.id ⟨false, a, x, split⟩ none none)) { tag := tag, xobj := some (d.objs.length + 1), gs := gs }
      rw [show (d.add (.image img.id ⟨false, a, x, split⟩ none none)).curPage = d.curPage from rfl] at this
      rw [← this]
      generalize Doc.appendPaged _ _ = r
      obtain ⟨d', o⟩ := r
      cases o <;> simp

theorem maskHolder_panic {d : Doc} (h : Bare d) (tag : Nat) (img : Img) (gs : List Nat) :
    (d.maskHolder tag img gs).2.2 = .panic ↔ img.parsed.isSome ∧ d.curPage = none := by
  unfold Doc.maskHolder
  cases hi : assoc d.imgs img.id with
  | some i =>
    have hc : d.curPage ≠ none := fun hc => by rw [h hc] at hi; simp [assoc] at hi
    cases hcp : d.curPage with
    | none => exact absurd hcp hc
    | some p => simp
  | none =>
    cases hp : img.parsed with
    | none => simp
    | some ax =>
      obtain ⟨a, x⟩ := ax
      simp only [show (d.add (.image img.id ⟨true, a, x, false⟩ none none)).curPage = d.curPage from rfl]
      cases hcp : d.curPage <;> simp

theorem maskHolder_page {d : Doc} (tag : Nat) (img : Img) (gs : List Nat) (h : (d.maskHolder tag img gs).2.2 = .ok) (hb : Bare d) : d.curPage ≠ none := by
  intro hc
  unfold Doc.maskHolder at h
  rw [hb hc, show assoc ([] : List (Nat × Nat)) img.id = none from rfl] at h
  cases hp : img.parsed with
  | none => simp [hp] at h
  | some ax =>
    obtain ⟨a, x⟩ := ax
    simp only [hp, show (d.add (.image img.id ⟨true, a, x, false⟩ none none)).curPage = d.curPage from rfl, hc, Option.isNone_none, if_true] at h
    cases h

theorem bare_trans {d : Doc} (h : Bare d) (t : Option Tr) : Bare (d.cachedTransparency t).1 ∧ (d.cachedTransparency t).1.curPage = d.curPage ∧
    (d.cachedTransparency t).1.imgs = d.imgs := by
  have g := GExt.cachedTransparency imgv_blind d t
  have g2 := (pairs_gext g).2
  exact ⟨fun hc => by rw [g2]; exact h (g.curPage.symm.trans hc), g.curPage, g2⟩

theorem imageWithOptions_panic {d : Doc} (h : Bare d) (tag : Nat) (img : Img) (tr : Option Tr) (mask : Option (Img × Option Tr)) :
    (d.imageWithOptions tag img tr mask).2 = .panic ↔ opPage (.imageOpt tag img tr mask) ∧ d.curPage = none := by
  unfold Doc.imageWithOptions
  obtain ⟨h1, c1, -⟩ := bare_trans h tr
  cases mask with
  | none =>
    simp only []
    rw [imageByHolder_panic h1, c1]; rfl
  | some m =>
    obtain ⟨m, mtr⟩ := m
    obtain ⟨h2, c2, -⟩ := bare_trans h1 mtr
    simp only []
    have hm := maskHolder_panic h2 tag m ((d.cachedTransparency tr).1.cachedTransparency mtr).2.toList
    have ho := fun h => maskHolder_page tag m ((d.cachedTransparency tr).1.cachedTransparency mtr).2.toList h h2
    have hg := (GExt.maskHolder (tag := tag) outv_blind rfl ((d.cachedTransparency tr).1.cachedTransparency mtr).1 m
      ((d.cachedTransparency tr).1.cachedTransparency mtr).2.toList).curPage
    rw [c2, c1] at hm hg ho
    revert hm hg ho
    generalize Doc.maskHolder _ _ m _ = r
    obtain ⟨d', g, o⟩ := r
    intro hm ho hg
    dsimp only at hm hg ho
    cases g with
    | none => exact hm
    | some g =>
      cases o with
      | ok =>
        simp only []
        have hc := ho rfl
        have hb : Bare d' := fun hx => absurd (hg ▸ hx) hc
        rw [imageByHolder_panic hb, hg]
        simp [hc]
      | err => exact hm
      | panic => exact hm

/-- An operation panics exactly if it needs a font or a page that is not there. -/
theorem step_panic {d : Doc} (h : Bare d) (op : Op) :
    (step d op).2 = .panic ↔ (opFont op = true ∧ d.curFont = none) ∨ (opPage op = true ∧ d.curPage = none) := by
  cases op with
  | draw tag b => cases b <;> simp [step, opFont, opPage, appendPaged_panic]
  | drawTr tag tr => simp only [step, appendPaged_panic, (bare_trans h tr).2.1]; simp [opFont, opPage]
  | text tag =>
    simp only [step]
    cases hc : d.curFont with
    | none => simp [opFont]
    | some p => simp only [appendPaged_panic]; simp [opPage]
  | cell tag tr =>
    have hf : (d.cachedTransparency tr).1.curFont = d.curFont := by
      cases tr with
      | none => rfl
      | some t =>
        simp only [Doc.cachedTransparency, Doc.saveTransparency, Doc.extGState]
        split
        · rfl
        · split
          · rfl
          · split <;> rfl
    simp only [step, hf]
    cases hc : d.curFont with
    | none => simp [opFont]
    | some p => simp only [appendPaged_panic, (bare_trans h tr).2.1]; simp [opPage]
  | image tag img => simp only [step, imageByHolder_panic h]; simp [opFont, opPage]
  | imageOpt tag img tr mask => simp only [step, imageWithOptions_panic h]; simp [opFont]
  | externalLink => simp only [step, Doc.addLink]; cases hc : d.curPage <;> simp [opFont, opPage]
  | internalLink a => simp only [step, Doc.addLink]; cases hc : d.curPage <;> simp [opFont, opPage]
  | addFont f s ok => cases ok <;> simp [step, opFont, opPage]
  | setFont f s => simp only [step, Doc.setFont]; split <;> simp [opFont, opPage]
  | addColorSpace n => simp only [step, Doc.addColorSpace]; split <;> simp [opFont, opPage]
  | setColorSpace tag n => simp only [step, Doc.setColorSpace]; split <;> simp [opFont, opPage]
  | setPage k => simp only [step, Doc.setPage]; split <;> simp [opFont, opPage]
  | _ => simp [step, opFont, opPage]

/-- A page is there exactly after AddPage. -/
theorem step_curPage (d : Doc) (op : Op) : (step d op).1.curPage = none ↔ d.curPage = none ∧ op ≠ .addPage := by
  have h := step_curPageId d op
  unfold Doc.curPageId at h
  cases h1 : (step d op).1.curPage with
  | some p =>
    rw [h1] at h
    simp only [reduceCtorEq, false_iff, not_and, not_not]
    intro hc
    by_contra ho
    rw [if_neg ho, hc] at h
    simp at h
  | none =>
    rw [h1] at h
    simp only [true_iff]
    by_cases ho : op = .addPage
    · rw [if_pos ho] at h; simp [Doc.nextID] at h
    · rw [if_neg ho] at h
      refine ⟨?_, ho⟩
      cases hc : d.curPage with
      | none => rfl
      | some p => rw [hc] at h; simp at h

theorem bare_step {d : Doc} (h : Bare d) (op : Op) (hp : (step d op).2 ≠ .panic) : Bare (step d op).1 := by
  intro hc
  obtain ⟨h1, h2⟩ := (step_curPage d op).1 hc
  by_cases hi : op.isImage = true
  · have np := fun hx => hp ((step_panic h op).2 (.inr ⟨hx, h1⟩))
    cases op <;> simp [Op.isImage] at hi
    · next tag img =>
      have hn : img.parsed = none := by
        cases hx : img.parsed with
        | none => rfl
        | some a => exact absurd (by simp [opPage, hx]) np
      simp only [step, Doc.imageByHolder, h h1, show assoc ([] : List (Nat × Nat)) img.id = none from rfl, hn]
    · next tag img tr mask =>
      obtain ⟨b1, c1, e1⟩ := bare_trans h tr
      simp only [step, Doc.imageWithOptions]
      cases mask with
      | none =>
        have hn : img.parsed = none := by
          cases hx : img.parsed with
          | none => rfl
          | some a => exact absurd (by simp [opPage, hx]) np
        simp only [Doc.imageByHolder, e1, h h1, show assoc ([] : List (Nat × Nat)) img.id = none from rfl, hn]
      | some m =>
        obtain ⟨m, mtr⟩ := m
        have hn : m.parsed = none := by
          cases hx : m.parsed with
          | none => rfl
          | some a => exact absurd (by simp [opPage, hx]) np
        obtain ⟨b2, c2, e2⟩ := bare_trans b1 mtr
        simp only [Doc.maskHolder, e2, e1, h h1, show assoc ([] : List (Nat × Nat)) m.id = none from rfl, hn]
  · by_cases hs : op.structural = false
    · rw [(pairs_gext (step_gext imgv_blind d op hs (Or.inl (by simpa using hi)))).2]; exact h h1
    · cases op <;> simp [Op.structural] at hs
      · exact absurd rfl h2
      · simp only [step]; rw [addLink_fields]; exact h h1
      · simp only [step]; rw [addLink_fields]; exact h h1
      · exact h h1
      · simp only [step]; rw [addOutline_fields]; exact h h1

end Verif.Doc
