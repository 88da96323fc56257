import Verif.Spec.PlaceHolder
import Verif.Lemmas.Content.Alone
import Mathlib.Data.List.Nodup
/- Placeholders keep their place. -/
namespace Verif.Content
open Drawing

/-- The item number `k` of a page. -/
def St.at (s : St) (pg k : Nat) : Option Item := (s.pages.getD pg [])[k]?

theorem at_set {s s' : St} {items : List Item} (hp : s.page < s.pages.length) (h : s'.pages = s.pages.set s.page items)
    (pg k : Nat) : s'.at pg k = if s.page = pg then items[k]? else s.at pg k := by
  unfold St.at
  rw [h]
  by_cases he : s.page = pg
  · subst he; simp [hp]
  · simp [he]

/-- Drawing never changes a placeholder. -/
theorem at_step {e : Env} {s s' : St} {c : Call} (h : step e s c = some s') (hp : s.page < s.pages.length) {pg k : Nat} {t : TextItem}
    (ht : s.at pg k = some (.text t)) (hph : t.isPlaceHolder = true) : s'.at pg k = some (.text t) := by
  cases step_did h with
  | addPage x hpg hc =>
    unfold St.at
    rw [hpg, getD_append_nil]
    exact ht
  | setPage n hpg hc => unfold St.at; rw [hpg]; exact ht
  | keep c ha hs hw hpg hc => unfold St.at; rw [hpg]; exact ht
  | item c ha hs hw i hi hpg hc =>
    rw [at_set hp hpg]
    split
    · next he =>
      subst he
      have hk : k < (s.pages.getD s.page []).length := by
        by_contra hn
        unfold St.at at ht
        rw [List.getElem?_eq_none (by omega)] at ht
        exact absurd ht (by simp)
      rw [List.getElem?_append_left hk]
      exact ht
    · exact ht
  | text c ha hs n cell rect opt hn hq h =>
    unfold St.addText at h
    split at h
    · exact absurd h (by simp)
    next items x y happ =>
    obtain rfl := Option.some.inj h
    rw [at_set (s' := { s with pages := s.pages.set s.page items, cur := { s.cur with x := x, y := y } }) hp rfl]
    split
    · next he =>
      subst he
      obtain ⟨pre, c', t', hcase, -, rfl, -, -⟩ := append_cases happ
      rcases hcase with ⟨heq, hsame⟩ | ⟨heq, -, -⟩
      · have hk : k < pre.length := by
          unfold St.at at ht
          rw [heq] at ht
          by_contra hk
          by_cases hk2 : k = pre.length
          · subst hk2
            rw [List.getElem?_append_right (le_refl _)] at ht
            simp only [Nat.sub_self, List.getElem?_cons_zero, Option.some.injEq, Item.text.injEq] at ht
            subst ht
            have : c'.isPlaceHolder = n.isPlaceHolder := by
              unfold isSame at hsame
              simp only [Bool.and_eq_true, beq_iff_eq] at hsame
              exact hsame.2
            rw [this, hn] at hph
            simp [newText] at hph
          · rw [List.getElem?_eq_none (by simp; omega)] at ht
            exact absurd ht (by simp)
        unfold St.at at ht
        rw [heq, List.getElem?_append_left hk] at ht
        rw [List.getElem?_append_left hk]
        exact ht
      · have hk : k < pre.length := by
          by_contra hn
          unfold St.at at ht
          rw [heq, List.getElem?_eq_none (by omega)] at ht
          exact absurd ht (by simp)
        unfold St.at at ht
        rw [heq] at ht
        rw [List.getElem?_append_left hk]
        exact ht
    · exact ht

theorem at_fillOne {e : Env} {text : List Nat} {align : Nat} {s s' : St} {i : PInfo} (h : fillOne e text align s i = some s') :
    s'.cur = s.cur ∧ s'.page = s.page ∧ s'.pages.length = s.pages.length ∧ ∃ r,
      createContent (e.fonts (s.cur.font + 1)) text i.size i.spacing none = some r ∧
      ∀ pg k, s'.at pg k = if i.page = pg ∧ i.idx = k then
        (s.at pg k).map (fillItem text (fillShift align (i.width - Units.fromPoints e.cfg r.2.2))) else s.at pg k := by
  unfold fillOne at h
  obtain ⟨r, hr, rfl⟩ := Option.map_eq_some_iff.1 h
  refine ⟨rfl, rfl, by simp, r, hr, fun pg k => ?_⟩
  unfold St.at
  simp only [List.getD_eq_getElem?_getD, List.getElem?_modify]
  by_cases h1 : i.page = pg
  · subst h1
    cases hx : s.pages[i.page]? with
    | none => simp [hx]
    | some l =>
      by_cases h2 : i.idx = k
      · subst h2; simp [hx]
      · simp [hx, h2, List.getElem?_modify]
  · simp [h1]

/-- The positions of placeholders. -/
def PInfo.pos (i : PInfo) : Nat × Nat := (i.page, i.idx)

/-- What filling does to the items. -/
theorem at_fillAll {e : Env} {text : List Nat} {align : Nat} : ∀ (l : List PInfo) (s s' : St), fillAll e text align s l = some s' →
    (l.map PInfo.pos).Nodup →
    s'.cur = s.cur ∧ s'.page = s.page ∧ s'.pages.length = s.pages.length ∧
    (∀ pg k, (pg, k) ∉ l.map PInfo.pos → s'.at pg k = s.at pg k) ∧
    (∀ i ∈ l, ∃ r, createContent (e.fonts (s.cur.font + 1)) text i.size i.spacing none = some r ∧
      s'.at i.page i.idx = (s.at i.page i.idx).map (fillItem text (fillShift align (i.width - Units.fromPoints e.cfg r.2.2)))) := by
  intro l
  induction l with
  | nil =>
    intro s s' h _
    obtain rfl : s = s' := by simpa [fillAll] using h
    exact ⟨rfl, rfl, rfl, fun _ _ _ => rfl, by simp⟩
  | cons i l ih =>
    intro s s' h hnd
    obtain ⟨s1, h1, h2⟩ := Option.bind_eq_some_iff.1 h
    rw [List.map_cons, List.nodup_cons] at hnd
    obtain ⟨a1, a2, a3, r, hr, a4⟩ := at_fillOne h1
    obtain ⟨b1, b2, b3, b4, b5⟩ := ih s1 s' h2 hnd.2
    refine ⟨b1.trans a1, b2.trans a2, b3.trans a3, fun pg k hn => ?_, fun j hj => ?_⟩
    · rw [List.map_cons, List.mem_cons, not_or] at hn
      rw [b4 pg k hn.2, a4, if_neg]
      rintro ⟨rfl, rfl⟩
      exact hn.1 rfl
    · rcases List.mem_cons.1 hj with rfl | hj
      · refine ⟨r, hr, ?_⟩
        rw [b4 _ _ hnd.1, a4, if_pos ⟨rfl, rfl⟩]
      · obtain ⟨r', hr', h'⟩ := b5 j hj
        refine ⟨r', by rw [← a1]; exact hr', ?_⟩
        rw [h', a4, if_neg]
        rintro ⟨e1, e2⟩
        exact hnd.1 (List.mem_map.2 ⟨j, hj, by simp [PInfo.pos, e1, e2]⟩)

/-- Every entry of the table is the place of a placeholder, each of its own. -/
structure Registered (p : PSt) : Prop where
  page : p.s.page < p.s.pages.length
  items : ∀ x ∈ p.table, ∃ t, p.s.at x.2.page x.2.idx = some (.text t) ∧ t.isPlaceHolder = true
  nodup : (p.table.map (·.2.pos)).Nodup

theorem infos_pos {p : PSt} (h : (p.table.map (·.2.pos)).Nodup) (name : List UInt8) : ((p.infos name).map PInfo.pos).Nodup := by
  unfold PSt.infos
  rw [List.map_map]
  exact (List.filter_sublist.map _).nodup h

theorem mem_infos {p : PSt} {name : List UInt8} {i : PInfo} : i ∈ p.infos name ↔ (name, i) ∈ p.table := by
  simp [PSt.infos]

theorem at_place {e : Env} {p : PSt} {name : List UInt8} {w : ℚ} (hp : p.s.page < p.s.pages.length) (pg k : Nat) :
    (placeHolder e p name w).s.at pg k =
      if p.s.page = pg then (p.s.pages.getD p.s.page [] ++ [.text (newPlaceHolder p.s.cur)])[k]? else p.s.at pg k :=
  at_set (s' := (placeHolder e p name w).s) hp (modify_eq_set _ _ _) pg k

theorem at_lt {s : St} {pg k : Nat} {i : Item} (h : s.at pg k = some i) : k < (s.pages.getD pg []).length := by
  by_contra hn
  unfold St.at at h
  rw [List.getElem?_eq_none (by omega)] at h
  exact absurd h (by simp)

theorem at_place_old {e : Env} {p : PSt} {name : List UInt8} {w : ℚ} (hp : p.s.page < p.s.pages.length) {pg k : Nat} {i : Item}
    (h : p.s.at pg k = some i) : (placeHolder e p name w).s.at pg k = some i := by
  rw [at_place hp]
  split
  · next he =>
    subst he
    rw [List.getElem?_append_left (at_lt h)]
    exact h
  · exact h

theorem at_place_new {e : Env} {p : PSt} {name : List UInt8} {w : ℚ} (hp : p.s.page < p.s.pages.length) :
    (placeHolder e p name w).s.at p.s.page (p.s.pages.getD p.s.page []).length = some (.text (newPlaceHolder p.s.cur)) := by
  rw [at_place hp, if_pos rfl, List.getElem?_append_right (le_refl _)]
  simp

theorem registered_step {e : Env} {p p' : PSt} {c : PCall} (hr : Registered p) (h : pstep e p c = some p') : Registered p' := by
  cases c with
  | draw c =>
    obtain ⟨s, hs, rfl⟩ := Option.map_eq_some_iff.1 h
    refine ⟨did_page hs hr.page, fun x hx => ?_, hr.nodup⟩
    obtain ⟨t, h1, h2⟩ := hr.items x hx
    exact ⟨t, at_step hs hr.page h1 h2, h2⟩
  | place name w =>
    obtain rfl : placeHolder e p name w = p' := by simpa [pstep] using h
    refine ⟨by simpa [placeHolder, St.add] using hr.page, fun x hx => ?_, ?_⟩
    · rcases List.mem_append.1 hx with hx | hx
      · obtain ⟨t, h1, h2⟩ := hr.items x hx
        exact ⟨t, at_place_old hr.page h1, h2⟩
      · obtain rfl := List.mem_singleton.1 hx
        exact ⟨_, at_place_new hr.page, rfl⟩
    · show ((p.table ++ [_]).map _).Nodup
      rw [List.map_append, List.nodup_append]
      refine ⟨hr.nodup, by simp, fun a ha b hb => ?_⟩
      obtain ⟨x, hx, rfl⟩ := List.mem_map.1 ha
      obtain rfl := List.mem_singleton.1 hb
      obtain ⟨t, h1, -⟩ := hr.items x hx
      have hlt := at_lt h1
      intro heq
      simp only [PInfo.pos, Prod.mk.injEq] at heq
      rw [heq.1, heq.2] at hlt
      omega
  | fill name text align =>
    obtain ⟨s, hs, rfl⟩ := Option.map_eq_some_iff.1 h
    obtain ⟨a1, a2, a3, a4, a5⟩ := at_fillAll _ _ _ hs (infos_pos hr.nodup name)
    refine ⟨by show s.page < s.pages.length; rw [a2, a3]; exact hr.page, fun x hx => ?_, hr.nodup⟩
    obtain ⟨t, h1, h2⟩ := hr.items x hx
    by_cases hm : (x.2.page, x.2.idx) ∈ (p.infos name).map PInfo.pos
    · obtain ⟨i, hi, he⟩ := List.mem_map.1 hm
      obtain ⟨r, -, h3⟩ := a5 i hi
      simp only [PInfo.pos, Prod.mk.injEq] at he
      rw [he.1, he.2, h1] at h3
      exact ⟨_, h3, h2⟩
    · exact ⟨t, (a4 _ _ hm).trans h1, h2⟩

theorem registered_steps {e : Env} : ∀ (calls : List PCall) {p p' : PSt}, Registered p → psteps e p calls = some p' → Registered p' := by
  intro calls
  induction calls with
  | nil => intro p p' hr h; obtain rfl : p = p' := by simpa [psteps] using h
           exact hr
  | cons c calls ih =>
    intro p p' hr h
    obtain ⟨p1, h1, h2⟩ := Option.bind_eq_some_iff.1 h
    exact ih (registered_step hr h1) h2

theorem registered_start (height ml mt : ℚ) : Registered { s := start height ml mt } :=
  ⟨by simp [start], by simp, by simp⟩

/-- A placeholder in the table stays there. -/
theorem table_step {e : Env} {p p' : PSt} {c : PCall} (h : pstep e p c = some p') {x : List UInt8 × PInfo} (hx : x ∈ p.table) :
    x ∈ p'.table := by
  cases c with
  | draw c => obtain ⟨s, hs, rfl⟩ := Option.map_eq_some_iff.1 h; exact hx
  | place name w => obtain rfl : placeHolder e p name w = p' := by simpa [pstep] using h
                    exact List.mem_append_left _ hx
  | fill name text align => obtain ⟨s, hs, rfl⟩ := Option.map_eq_some_iff.1 h; exact hx

/-- A placeholder between calls: only its text changes. -/
theorem stays {e : Env} {name : List UInt8} {i : PInfo} : ∀ (calls : List PCall) {p p' : PSt}, Registered p → (name, i) ∈ p.table →
    psteps e p calls = some p' → (∀ c ∈ calls, LeftOnly name c) → ∀ t, p.s.at i.page i.idx = some (.text t) →
    (name, i) ∈ p'.table ∧ ∃ text, p'.s.at i.page i.idx = some (.text { t with text := text }) ∧
      ((∀ tx a, PCall.fill name tx a ∉ calls) → text = t.text) := by
  intro calls
  induction calls with
  | nil =>
    intro p p' hr hm h _ t ht
    obtain rfl : p = p' := by simpa [psteps] using h
    exact ⟨hm, t.text, ht, fun _ => rfl⟩
  | cons c calls ih =>
    intro p p' hr hm h hl t ht
    obtain ⟨p1, h1, h2⟩ := Option.bind_eq_some_iff.1 h
    have hr1 := registered_step hr h1
    have hm1 := table_step h1 hm
    have key : ∃ text, p1.s.at i.page i.idx = some (.text { t with text := text }) ∧
        ((∀ tx a, c ≠ PCall.fill name tx a) → text = t.text) := by
      cases c with
      | draw c =>
        obtain ⟨s, hs, rfl⟩ := Option.map_eq_some_iff.1 h1
        obtain ⟨t', h3, h4⟩ := hr.items _ hm
        obtain rfl : t' = t := by rw [ht] at h3; simpa using h3.symm
        exact ⟨t'.text, at_step hs hr.page ht h4, fun _ => rfl⟩
      | place n w =>
        obtain rfl : placeHolder e p n w = p1 := by simpa [pstep] using h1
        exact ⟨t.text, at_place_old hr.page ht, fun _ => rfl⟩
      | fill n text align =>
        obtain ⟨s, hs, rfl⟩ := Option.map_eq_some_iff.1 h1
        obtain ⟨a1, a2, a3, a4, a5⟩ := at_fillAll _ _ _ hs (infos_pos hr.nodup n)
        by_cases hn : n = name
        · subst hn
          have hlo : LeftOnly n (.fill n text align) := hl _ List.mem_cons_self
          obtain ⟨hnr, hnc⟩ := hlo rfl
          obtain ⟨r, -, h3⟩ := a5 i (mem_infos.2 hm)
          rw [ht] at h3
          refine ⟨text, ?_, fun h => absurd rfl (h text align)⟩
          rw [h3]
          simp [fillItem, fillShift, hnr, hnc]
        · refine ⟨t.text, ?_, fun _ => rfl⟩
          rw [a4 _ _ ?_, ht]
          intro hmem
          obtain ⟨j, hj, he⟩ := List.mem_map.1 hmem
          have hj' := mem_infos.1 hj
          have : (n, j) = (name, i) :=
            List.inj_on_of_nodup_map hr.nodup hj' hm he
          exact hn (congrArg Prod.fst this)
    obtain ⟨text1, k1, k2⟩ := key
    obtain ⟨b1, text2, b2, b3⟩ := ih hr1 hm1 h2 (fun c hc => hl c (by simp [hc])) _ k1
    refine ⟨b1, text2, b2, fun hno => ?_⟩
    rw [b3 (fun tx a hmem => hno tx a (by simp [hmem]))]
    exact k2 (fun tx a hc => hno tx a (by simp [hc]))

end Verif.Content
