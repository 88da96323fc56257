import Verif.Lemmas.Content.Styles
/- With and without joining. -/
namespace Verif.Content
open Paint Drawing

/-- The same document up to the cursor and the way text is split into items. -/
def Near (wd : Widths) (e : Env) (s u : St) : Prop :=
  ∃ x y ps, u = { s with cur := { s.cur with x := x, y := y }, pages := ps } ∧ ps.length = s.pages.length ∧
    ∀ n, SameView wd e (s.pages.getD n []) (ps.getD n [])

theorem SameView.refl (wd : Widths) (e : Env) (a : List Item) : SameView wd e a a := rfl

theorem near_self (wd : Widths) (e : Env) (s : St) : Near wd e s s := ⟨_, _, _, rfl, rfl, fun _ => rfl⟩

theorem getD_set {α : Type} (l : List (List α)) (k n : Nat) (a : List α) (h : k < l.length) :
    (l.set k a).getD n [] = if k = n then a else l.getD n [] := by
  rw [List.getD_eq_getElem?_getD]
  by_cases hn : k = n
  · subst hn; simp [h]
  · rw [List.getElem?_set_ne hn, if_neg hn, ← List.getD_eq_getElem?_getD]

theorem views_modify {wd : Widths} {e : Env} {a b : List (List Item)} (hl : b.length = a.length)
    (hv : ∀ n, SameView wd e (a.getD n []) (b.getD n [])) (k : Nat) (i : Item) :
    (b.modify k (· ++ [i])).length = (a.modify k (· ++ [i])).length ∧
    ∀ n, SameView wd e ((a.modify k (· ++ [i])).getD n []) ((b.modify k (· ++ [i])).getD n []) := by
  refine ⟨by simp [hl], fun n => ?_⟩
  rw [modify_eq_set, modify_eq_set]
  by_cases hk : k < a.length
  · rw [getD_set _ _ _ _ hk, getD_set _ _ _ _ (by omega)]
    split
    · exact (hv k).snoc i
    · exact hv n
  · rw [List.set_eq_of_length_le (by omega), List.set_eq_of_length_le (by omega)]
    exact hv n

theorem near_step {wd : Widths} {e : Env} {s s' u : St} {c : Call} (hu : Near wd e s u) (h : step e s c = some s')
    (hn : asked e s c = none) : ∃ u', stepAlone e u c = some u' ∧ Near wd e s' u' := by
  obtain ⟨x, y, ps, rfl, hl, hv⟩ := hu
  have hna : ∀ u : St, asked e u c = none := by intro u; cases c <;> first | rfl | simp [asked] at hn
  unfold stepAlone
  rw [hna]
  cases c with
  | text t => simp [asked] at hn
  | cell r t => simp [asked] at hn
  | cellWithOption r t o tr => simp [asked] at hn
  | addPage hh =>
    simp only [step, Option.some.injEq] at h; subst h
    refine ⟨_, rfl, _, _, ps ++ [[]], by simp only [hl]; rfl, by simp [hl], fun n => ?_⟩
    rw [getD_append_nil, getD_append_nil]; exact hv n
  | setPage k =>
    simp only [step, Option.some.injEq] at h; subst h
    simp only [step, hl]
    refine ⟨_, rfl, x, y, ps, ?_, ?_, ?_⟩
    · split <;> rfl
    · split <;> exact hl
    · split <;> exact hv
  | setLineType a b =>
    simp only [step, Option.some.injEq] at h; subst h
    have hm := fun i => views_modify hl hv s.page i
    exact ⟨_, rfl, x, y, _, rfl, (hm _).1, (hm _).2⟩
  | _ =>
    simp only [step, Option.some.injEq] at h; subst h
    have hm := fun i => views_modify hl hv s.page i
    first
    | exact ⟨_, rfl, _, _, ps, rfl, hl, hv⟩
    | exact ⟨_, rfl, _, _, _, rfl, (hm _).1, (hm _).2⟩

theorem near_text {wd : Widths} {e : Env} {s s' u : St} {c : Call} {t : TextItem} {text : List Nat} (hu : Near wd e s u)
    (h : s.addText e t text = some s') (hq : asked e s c = some (t, text)) (ht : t.text = [])
    (hp : s.page < s.pages.length)
    (hj : ∀ t', joinTarget (s.pages.getD s.page []) t = some t' → t'.opt.ext = t.opt.ext ∧ t'.inColour = t.inColour) :
    ∃ u', stepAlone e u c = some u' ∧ Near wd e s' u' := by
  obtain ⟨x, y, ps, rfl, hl, hv⟩ := hu
  -- the item asked for without joining
  obtain ⟨tu, hqu, hal, hft⟩ : ∃ tu, asked e { s with cur := { s.cur with x := x, y := y }, pages := ps } c = some (tu, text) ∧
      Alike t tu ∧ tu.text = [] := by
    cases c <;> simp [asked] at hq
    · obtain ⟨rfl, rfl⟩ := hq; exact ⟨_, rfl, ⟨rfl, rfl, rfl, rfl, rfl, rfl⟩, rfl⟩
    · obtain ⟨rfl, rfl⟩ := hq; exact ⟨_, rfl, ⟨rfl, rfl, rfl, rfl, rfl, rfl⟩, rfl⟩
    · obtain ⟨rfl, rfl⟩ := hq; exact ⟨_, rfl, ⟨rfl, rfl, rfl, rfl, rfl, rfl⟩, rfl⟩
  unfold St.addText at h
  split at h
  · exact absurd h (by simp)
  next items x' y' hap =>
  obtain rfl := Option.some.inj h
  obtain ⟨pre, c', t2, hc, hx, rfl, -, -⟩ := append_cases hap
  obtain ⟨al2, htext2⟩ := extend_alike hx
  have hjoin : pre ++ [.text c'] = s.pages.getD s.page [] → isSame c' t = true →
      c'.opt.ext = t.opt.ext ∧ c'.inColour = t.inColour := by
    intro hpre hs
    refine hj c' ?_
    rw [← hpre]; simp [joinTarget, hs]
  have hfont : c'.font = tu.font := by
    rcases hc with ⟨-, hs⟩ | ⟨-, rfl, -⟩
    · rw [(isSame_fields hs).2.2.2.1, hal.font]
    · exact hal.font
  obtain ⟨n, hn⟩ := extend_part hx hfont hft
  obtain ⟨aln, htextn⟩ := extend_alike hn
  rw [hft, List.nil_append] at htextn
  have halo : Alike t n := ⟨hal.font.trans aln.font, hal.size.trans aln.size, hal.spacing.trans aln.spacing,
    hal.colour.trans aln.colour, hal.inColour.trans aln.inColour, hal.ext.trans aln.ext⟩
  unfold stepAlone
  rw [hqu]
  dsimp only
  unfold addAlone
  rw [hn, Option.map_some]
  refine ⟨_, rfl, _, _, _, rfl, by simp [hl], fun k => ?_⟩
  dsimp only
  rw [modify_eq_set, getD_set _ _ _ _ hp, getD_set _ _ _ _ (by omega)]
  split
  · rcases hc with ⟨hpre, hs⟩ | ⟨hpre, rfl, -⟩
    · obtain ⟨j1, j2⟩ := hjoin hpre.symm hs
      obtain ⟨-, f2, -, f4, f5, -, f7, -, -⟩ := isSame_fields hs
      have hv' := hv s.page
      rw [hpre] at hv'
      refine hv'.join al2 ⟨f4.trans halo.font, f5.trans halo.size, f7.trans halo.spacing, f2.trans halo.colour,
        j2.trans halo.inColour, j1.trans halo.ext⟩ ?_
      rw [htext2, htextn]
    · rw [← hpre]
      refine (hv s.page).text ⟨al2.font.symm.trans halo.font, al2.size.symm.trans halo.size,
        al2.spacing.symm.trans halo.spacing, al2.colour.symm.trans halo.colour, al2.inColour.symm.trans halo.inColour,
        al2.ext.symm.trans halo.ext⟩ ?_
      rw [htext2, htextn, ht, List.nil_append]
  · exact hv k

theorem did_page {e : Env} {s s' : St} {c : Call} (h : step e s c = some s') (hp : s.page < s.pages.length) :
    s'.page < s'.pages.length := by
  cases step_effect h with
  | addPage x hpg hc => rw [hpg, hc]; simp
  | setPage k hpg hc => rw [hpg, hc]; split <;> assumption
  | other _ _ _ hc items hpg _ _ => rw [hpg, hc]; simpa using hp

theorem near_steps {wd : Widths} {e : Env} : ∀ (calls : List Call) (s s' u : St), Near wd e s u →
    s.page < s.pages.length → steps e s calls = some s' → JoinsAgree e s calls →
    ∃ u', stepsAlone e u calls = some u' ∧ Near wd e s' u' := by
  intro calls
  induction calls with
  | nil =>
    intro s s' u hu _ h _
    obtain rfl : s = s' := by simpa [steps] using h
    exact ⟨u, rfl, hu⟩
  | cons c calls ih =>
    intro s s' u hu hp h hj
    simp only [steps] at h
    obtain ⟨s1, h1, h2⟩ := Option.bind_eq_some_iff.1 h
    obtain ⟨j1, j2⟩ := hj
    have : ∃ u1, stepAlone e u c = some u1 ∧ Near wd e s1 u1 := by
      cases hq : asked e s c with
      | none => exact near_step hu h1 hq
      | some tt =>
        obtain ⟨t, text⟩ := tt
        have hst : s.addText e t text = some s1 ∧ t.text = [] := by
          cases c <;> simp [asked] at hq <;> obtain ⟨rfl, rfl⟩ := hq <;> exact ⟨h1, rfl⟩
        exact near_text hu hst.1 hq hst.2 hp fun t' ht' => j1 t text t' hq ht'
    obtain ⟨u1, hu1, hn1⟩ := this
    obtain ⟨u', hu', hn'⟩ := ih s1 s' u1 hn1 (did_page h1 hp) h2 (j2 s1 h1)
    exact ⟨u', by simp [stepsAlone, hu1, hu'], hn'⟩

end Verif.Content
