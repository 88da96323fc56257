import Verif.Spec.Caller
/- Proofs of what the file has of variables of the caller. -/
namespace Verif.Caller
open Units

variable {c : Cfg} {mill : ℚ → Int}

theorem run_cons (s : State) (a : Act) (p : List Act) : s.run c mill (a :: p) = (s.step c mill a).run c mill p := rfl

theorem save_mem (s : State) (t : Tr) (q : Ptr) : (s.save mill t q).1.mem = s.mem := by
  unfold State.save; split
  · rfl
  · split <;> rfl

theorem save_states (s : State) (t : Tr) (q : Ptr) : s.states <+: (s.save mill t q).1.states := by
  unfold State.save; split
  · exact List.prefix_refl _
  · split
    · exact List.prefix_append _ _
    · exact List.prefix_refl _

/-- A slice nobody changes keeps its value; passing it again converts it again. -/
theorem dash_stays (r : Nat) (v : List ℚ) (points : Bool) (hp : points = true → v.map (toPoints c) = v) :
    ∀ (p : List Act) (s : State), (∀ v, .setDash r v ∉ p) → (points = false → ∀ q, .lineType r q ∉ p) → s.mem.dash r = v →
      (s.run c mill p).mem.dash r = v := by
  intro p
  induction p with
  | nil => intro s _ _ h; exact h
  | cons a p ih =>
    intro s h1 h2 h
    rw [run_cons]
    refine ih _ (fun v hv => h1 v (List.mem_cons_of_mem _ hv)) (fun hf q hq => h2 hf q (List.mem_cons_of_mem _ hq)) ?_
    cases a with
    | setDash q w =>
      have : r ≠ q := fun e => h1 w (e ▸ List.mem_cons_self)
      simp [State.step, Mem.assign, Function.update, this, h]
    | lineType q ph =>
      by_cases e : r = q
      · subst e
        cases points
        · exact absurd List.mem_cons_self (h2 rfl ph)
        · simp [State.step, h, hp rfl]
      · simp [State.step, Function.update, e, h]
    | draw o => cases o <;> simp [State.step, save_mem, h]
    | setTransparency v => simp [State.step, save_mem, h]
    | _ => simp [State.step, Mem.assign, h]

theorem crop_stays (r : Nat) : ∀ (p : List Act) (s : State), (∀ v, .setCrop r v ∉ p) → (s.run c mill p).mem.crop r = s.mem.crop r := by
  intro p
  induction p with
  | nil => intro s _; rfl
  | cons a p ih =>
    intro s h1
    rw [run_cons, ih _ fun v hv => h1 v (List.mem_cons_of_mem _ hv)]
    cases a with
    | setCrop q w =>
      have : r ≠ q := fun e => h1 w (e ▸ List.mem_cons_self)
      simp [State.step, Mem.assign, Function.update, this]
    | draw o => cases o <;> simp [State.step, save_mem]
    | setTransparency v => simp [State.step, save_mem]
    | _ => simp [State.step, Mem.assign]

theorem tr_stays (r : Nat) : ∀ (p : List Act) (s : State), (∀ v, .setTr r v ∉ p) → (s.run c mill p).mem.tr r = s.mem.tr r := by
  intro p
  induction p with
  | nil => intro s _; rfl
  | cons a p ih =>
    intro s h1
    rw [run_cons, ih _ fun v hv => h1 v (List.mem_cons_of_mem _ hv)]
    cases a with
    | setTr q w =>
      have : r ≠ q := fun e => h1 w (e ▸ List.mem_cons_self)
      simp [State.step, Mem.assign, Function.update, this]
    | draw o => cases o <;> simp [State.step, save_mem]
    | setTransparency v => simp [State.step, save_mem]
    | _ => simp [State.step, Mem.assign]

theorem step_states (s : State) (a : Act) : s.states <+: (s.step c mill a).states := by
  cases a with
  | draw o =>
    cases o
    · exact List.prefix_refl _
    · exact save_states _ _ _
  | setTransparency v => exact save_states _ _ _
  | _ => exact List.prefix_refl _

theorem states_stay : ∀ (p : List Act) (s : State), s.states <+: (s.run c mill p).states := by
  intro p
  induction p with
  | nil => intro s; exact List.prefix_refl _
  | cons a p ih => intro s; rw [run_cons]; exact (step_states s a).trans (ih _)

theorem getElem?_of_prefix {α : Type} {l m : List α} (h : l <+: m) {i : Nat} {g : α} (hg : l[i]? = some g) : m[i]? = some g := by
  obtain ⟨t, rfl⟩ := h
  rw [List.getElem?_append_left (by rw [List.getElem?_eq_some_iff] at hg; exact hg.1)]; exact hg

/-- The graphics state `i` says `k`, and does so to the end of the program. -/
def Says (mill : ℚ → Int) (s : State) (p : List Act) (i : Nat) (k : Int × Nat) : Prop :=
  ∃ g, s.states[i]? = some g ∧ (mill (s.mem.alpha g.1), g.2) = k ∧ ∀ r, g.1 = .caller r → ∀ v, .setTr r v ∉ p

theorem Says.final {s : State} {p : List Act} {i : Nat} {k : Int × Nat} (h : Says mill s p i k) :
    (s.run c mill p).show mill (.state (some i)) = .alpha (some k) := by
  obtain ⟨g, h1, h2, h3⟩ := h
  simp only [State.show, getElem?_of_prefix (states_stay (c := c) (mill := mill) p s) h1, Option.map_some]
  have : (s.run c mill p).mem.alpha g.1 = s.mem.alpha g.1 := by
    cases hg : g.1 with
    | own a => rfl
    | caller r => simp only [Mem.alpha]; rw [tr_stays r p s (h3 r hg)]
  rw [this, h2]

theorem step_tr (s : State) (a : Act) (r : Nat) (h : ∀ v, a ≠ .setTr r v) : (s.step c mill a).mem.tr r = s.mem.tr r := by
  cases a with
  | setTr q w =>
    have : r ≠ q := fun e => h w (e ▸ rfl)
    simp [State.step, Mem.assign, Function.update, this]
  | draw o => cases o <;> simp [State.step, save_mem]
  | setTransparency v => simp [State.step, save_mem]
  | _ => simp [State.step, Mem.assign]

theorem Says.step {s : State} {a : Act} {p : List Act} {i : Nat} {k : Int × Nat} (h : Says mill s (a :: p) i k) :
    Says mill (s.step c mill a) p i k := by
  obtain ⟨g, h1, h2, h3⟩ := h
  refine ⟨g, getElem?_of_prefix (step_states s a) h1, ?_, fun r hr v hv => h3 r hr v (List.mem_cons_of_mem _ hv)⟩
  rw [← h2]
  congr 2
  cases hg : g.1 with
  | own a => rfl
  | caller r =>
    simp only [Mem.alpha]
    rw [step_tr s a r fun v e => h3 r hg v (e ▸ List.mem_cons_self)]

/-- Lengths are in points. -/
def InPoints (c : Cfg) : Prop := (∀ u, toPoints c u = u) ∧ factor c.unit = 1

theorem InPoints.dash (h : InPoints c) (v : List ℚ) : v.map (toPoints c) = v := by
  rw [List.map_congr_left (g := id) fun u _ => h.1 u, List.map_id]

theorem InPoints.mask (h : InPoints c) (v : Mask) : (v.points c).points c = v.points c := by
  simp only [Mask.points, h.1, Option.map_map]
  congr 1
  cases v.rect with
  | none => rfl
  | some q =>
    simp only [Option.map_some, Function.comp_apply, Option.some.injEq]
    have e : ∀ u, toPoints ⟨c.unit, 0⟩ u = u := fun u => by simp [toPoints, h.2]
    simp [Rect.toPointsT, e]

/-- The relation of the state to the caller's view of its own memory. -/
structure Inv (c : Cfg) (mill : ℚ → Int) (points : Bool) (s : State) (m : Mem) (cur : Option (Int × Nat)) (p : List Act) : Prop where
  dash : ∀ r, (points = false → ∃ q, .lineType r q ∈ p) → (s.mem.dash r).map (toPoints c) = (m.dash r).map (toPoints c)
  crop : s.mem.crop = m.crop
  mask : ∀ r, (points = false → Reuses r p) → (s.mem.mask r).points c = (m.mask r).points c
  tr : s.mem.tr = m.tr
  cache : ∀ x ∈ s.cache, Says mill s p x.2 x.1 ∧ x.1.1 ≠ mill 1
  current : ∀ k, cur = some k → ∃ i, s.current = some i ∧ Says mill s p i k
  nothing : cur = none → s.current = none

/-- A step without transparency settings. -/
theorem Inv.plain {points : Bool} {s : State} {m m' : Mem} {cur : Option (Int × Nat)} {a : Act} {p : List Act}
    (h : Inv c mill points s m cur (a :: p)) (hc : (s.step c mill a).cache = s.cache) (hcur : (s.step c mill a).current = s.current)
    (h1 : ∀ r, (points = false → ∃ q, .lineType r q ∈ p) → ((s.step c mill a).mem.dash r).map (toPoints c) = (m'.dash r).map (toPoints c))
    (h2 : (s.step c mill a).mem.crop = m'.crop)
    (h3 : ∀ r, (points = false → Reuses r p) → ((s.step c mill a).mem.mask r).points c = (m'.mask r).points c)
    (h4 : (s.step c mill a).mem.tr = m'.tr) : Inv c mill points (s.step c mill a) m' cur p where
  dash := h1
  crop := h2
  mask := h3
  tr := h4
  cache := fun x hx => ⟨(h.cache x (hc ▸ hx)).1.step, (h.cache x (hc ▸ hx)).2⟩
  current := fun k hk => by
    obtain ⟨i, h5, h6⟩ := h.current k hk
    exact ⟨i, hcur ▸ h5, h6.step⟩
  nothing := fun hk => hcur ▸ h.nothing hk

/-- Saving a setting. -/
theorem Inv.saved {points : Bool} {s : State} {m : Mem} {cur : Option (Int × Nat)} {p : List Act} (h : Inv c mill points s m cur p)
    (t : Tr) (q : Ptr) (hq : s.mem.alpha q = t.alpha) (hr : ∀ r, q = .caller r → ∀ v, .setTr r v ∉ p)
    (ht : mill t.alpha = mill 1 → t.alpha = 1) :
    Inv c mill points (s.save mill t q).1 m cur p ∧
      match t.meant mill with
      | none => (s.save mill t q).2 = none
      | some k => ∃ i, (s.save mill t q).2 = some i ∧ Says mill (s.save mill t q).1 p i k := by
  unfold State.save
  split
  · rename_i x hx
    have hx1 := List.mem_of_find?_eq_some hx
    have hx2 : x.1 = (mill t.alpha, t.blend) := by simpa using List.find?_some hx
    have h1 := h.cache x hx1
    have : t.alpha ≠ 1 := fun e => h1.2 (by rw [hx2, e])
    refine ⟨h, ?_⟩
    simp only [Tr.meant, this, if_false]
    exact ⟨x.2, rfl, hx2 ▸ h1.1⟩
  · rename_i hx
    by_cases e : t.alpha = 1
    · simp only [e, ne_eq, not_true_eq_false, if_false, Tr.meant, if_true]
      exact ⟨h, trivial⟩
    · simp only [e, ne_eq, not_false_eq_true, if_true, Tr.meant, if_false]
      have old : ∀ i k, Says mill s p i k → Says mill { s with states := s.states ++ [(q, t.blend)], cache := s.cache ++ [((mill t.alpha, t.blend), s.states.length)] } p i k := by
        rintro i k ⟨g, h1, h2, h3⟩
        exact ⟨g, getElem?_of_prefix (List.prefix_append _ _) h1, h2, h3⟩
      have new : Says mill { s with states := s.states ++ [(q, t.blend)], cache := s.cache ++ [((mill t.alpha, t.blend), s.states.length)] } p s.states.length (mill t.alpha, t.blend) :=
        ⟨(q, t.blend), by simp, by simp only [hq], fun r hr' => hr r hr'⟩
      refine ⟨⟨h.dash, h.crop, h.mask, h.tr, fun x hx => ?_, fun k hk => ?_, h.nothing⟩, ⟨_, rfl, new⟩⟩
      · rw [List.mem_append, List.mem_singleton] at hx
        rcases hx with hx | rfl
        · exact ⟨old _ _ (h.cache x hx).1, (h.cache x hx).2⟩
        · exact ⟨new, fun e' => e (ht e')⟩
      · obtain ⟨i, h1, h2⟩ := h.current k hk
        exact ⟨i, h1, old _ _ h2⟩

theorem Inv.tail {points : Bool} {s : State} {m : Mem} {cur : Option (Int × Nat)} {a : Act} {p : List Act}
    (h : Inv c mill points s m cur (a :: p)) (ha : (∀ r q, a ≠ .lineType r q) ∧ (∀ r, a ≠ .masked r) ∧ (∀ r v, a ≠ .setMask r v)) :
    Inv c mill points s m cur p where
  dash := fun r hr => h.dash r fun hf => by obtain ⟨q, hq⟩ := hr hf; exact ⟨q, List.mem_cons_of_mem _ hq⟩
  crop := h.crop
  mask := fun r hr => h.mask r fun hf => by
    have := hr hf
    cases a with
    | setMask q v => exact absurd rfl (ha.2.2 q v)
    | masked q => exact absurd rfl (ha.2.1 q)
    | _ => exact this
  tr := h.tr
  cache := fun x hx => by
    obtain ⟨⟨g, h1, h2, h3⟩, h4⟩ := h.cache x hx
    exact ⟨⟨g, h1, h2, fun r hr v hv => h3 r hr v (List.mem_cons_of_mem _ hv)⟩, h4⟩
  current := fun k hk => by
    obtain ⟨i, h0, ⟨g, h1, h2, h3⟩⟩ := h.current k hk
    exact ⟨i, h0, g, h1, h2, fun r hr v hv => h3 r hr v (List.mem_cons_of_mem _ hv)⟩
  nothing := h.nothing

/-- The entries kept so far are written as they are at the end, the others as the program asks. -/
theorem run_shown {points : Bool} (hp : points = true → InPoints c) :
    ∀ (p : List Act) (s : State) (m : Mem) (cur : Option (Int × Nat)), LeavesAlone points p → Inv c mill points s m cur p →
      (∀ t, Settings m p t → mill t.alpha = mill 1 → t.alpha = 1) →
      (s.run c mill p).kept.map ((s.run c mill p).show mill) = s.kept.map ((s.run c mill p).show mill) ++ asked c mill m cur p := by
  intro p
  induction p with
  | nil => intro s m cur _ _ _; simp [State.run, asked]
  | cons a p ih =>
    intro s m cur hl hi hs
    rw [run_cons]
    have hs' : ∀ t, Settings m p t → mill t.alpha = mill 1 → t.alpha = 1 := fun t ht => hs t (by
      rcases ht with ⟨r, hr⟩ | ⟨r, hr⟩ | hr
      · exact .inl ⟨r, hr⟩
      · exact .inr (.inl ⟨r, List.mem_cons_of_mem _ hr⟩)
      · exact .inr (.inr (List.mem_cons_of_mem _ hr)))
    cases a with
    | setDash r v =>
      rw [ih _ { m with dash := Function.update m.dash r v } cur hl (hi.plain rfl rfl (fun q hq => ?_) hi.crop (fun q hq => hi.mask q hq) hi.tr) hs', asked]
      · rfl
      · simp only [State.step, Mem.assign, Function.update]
        split
        · rfl
        · exact hi.dash q fun hf => by obtain ⟨w, hw⟩ := hq hf; exact ⟨w, List.mem_cons_of_mem _ hw⟩
    | setCrop r v =>
      rw [ih _ { m with crop := Function.update m.crop r v } cur hl (hi.plain rfl rfl (fun q hq => ?_) ?_ (fun q hq => hi.mask q hq) hi.tr) hs', asked]
      · rfl
      · simp only [State.step, Mem.assign, hi.crop]
      · exact hi.dash q fun hf => by obtain ⟨w, hw⟩ := hq hf; exact ⟨w, List.mem_cons_of_mem _ hw⟩
    | setMask r v =>
      rw [ih _ { m with mask := Function.update m.mask r v } cur hl (hi.plain rfl rfl (fun q hq => ?_) hi.crop (fun q hq => ?_) hi.tr) hs', asked]
      · rfl
      · exact hi.dash q fun hf => by obtain ⟨w, hw⟩ := hq hf; exact ⟨w, List.mem_cons_of_mem _ hw⟩
      · simp only [State.step, Mem.assign, Function.update]
        split
        · rfl
        · rename_i e
          exact hi.mask q fun hf => ⟨fun e' => e e'.symm, hq hf⟩
    | setTr r v =>
      have hs2 : ∀ t, Settings { m with tr := Function.update m.tr r v } p t → mill t.alpha = mill 1 → t.alpha = 1 := by
        rintro t (⟨q, hq⟩ | ht | ht)
        · by_cases e : q = r
          · subst e
            have hq' : v = t := by simpa using hq
            exact hs t (.inr (.inl ⟨q, hq' ▸ List.mem_cons_self⟩))
          · exact hs t (.inl ⟨q, by simpa [Function.update, e] using hq⟩)
        · exact hs' t (.inr (.inl ht))
        · exact hs' t (.inr (.inr ht))
      rw [ih _ { m with tr := Function.update m.tr r v } cur hl (hi.plain rfl rfl (fun q hq => ?_) hi.crop (fun q hq => hi.mask q hq) ?_) hs2, asked]
      · rfl
      · simp only [State.step, Mem.assign, hi.tr]
      · exact hi.dash q fun hf => by obtain ⟨w, hw⟩ := hq hf; exact ⟨w, List.mem_cons_of_mem _ hw⟩
    | lineType r ph =>
      obtain ⟨h1, h2, h3⟩ := hl
      have hd := hi.dash r fun _ => ⟨ph, List.mem_cons_self⟩
      rw [ih _ m cur h3 (hi.plain rfl rfl (fun q hq => ?_) hi.crop (fun q hq => hi.mask q hq) hi.tr) hs', asked]
      · have hf := dash_stays (mill := mill) r ((m.dash r).map (toPoints c)) points (fun e => (hp e).dash _) p (s.step c mill (.lineType r ph)) h1 h2
          (by simp [State.step, hd])
        have : (s.step c mill (.lineType r ph)).kept = s.kept ++ [.dash r (toPoints c ph)] := rfl
        rw [this, List.map_append, List.map_singleton, List.append_assoc]
        simp only [State.show, hf, List.singleton_append]
      · simp only [State.step, Function.update]
        split
        · rename_i e
          subst e
          cases points
          · obtain ⟨w, hw⟩ := hq rfl
            exact absurd hw (h2 rfl w)
          · rw [(hp rfl).dash, hd]
        · exact hi.dash q fun hf => by obtain ⟨w, hw⟩ := hq hf; exact ⟨w, List.mem_cons_of_mem _ hw⟩
    | cropped r =>
      obtain ⟨h1, h2⟩ := hl
      rw [ih _ m cur h2 (hi.plain rfl rfl (fun q hq => ?_) hi.crop (fun q hq => hi.mask q hq) hi.tr) hs', asked]
      · have : (s.step c mill (.cropped r)).kept = s.kept ++ [.crop r] := rfl
        rw [this, List.map_append, List.map_singleton, List.append_assoc]
        have hf := crop_stays (c := c) (mill := mill) r p (s.step c mill (.cropped r)) h1
        have : (s.step c mill (.cropped r)).mem.crop r = m.crop r := by rw [← hi.crop]; rfl
        simp only [State.show, hf, this, List.singleton_append]
      · exact hi.dash q fun hf => by obtain ⟨w, hw⟩ := hq hf; exact ⟨w, List.mem_cons_of_mem _ hw⟩
    | masked r =>
      obtain ⟨h1, h2⟩ := hl
      have hm := hi.mask r fun _ => .inl rfl
      rw [ih _ m cur h2 (hi.plain rfl rfl (fun q hq => ?_) hi.crop (fun q hq => ?_) hi.tr) hs', asked]
      · have : (s.step c mill (.masked r)).kept = s.kept ++ [.mask ((s.mem.mask r).points c)] := rfl
        rw [this, List.map_append, List.map_singleton, List.append_assoc]
        simp only [State.show, hm, List.singleton_append]
        rfl
      · exact hi.dash q fun hf => by obtain ⟨w, hw⟩ := hq hf; exact ⟨w, List.mem_cons_of_mem _ hw⟩
      · simp only [State.step, Function.update]
        split
        · rename_i e
          subst e
          cases points
          · exact absurd (hq rfl) (h1 rfl)
          · rw [(hp rfl).mask, hm]
        · exact hi.mask q fun hf => .inr (hq hf)
    | draw o =>
      cases o with
      | none =>
        have hi' : Inv c mill points (s.step c mill (.draw none)) m cur p :=
          hi.plain rfl rfl (fun q hq => hi.dash q fun hf => by obtain ⟨w, hw⟩ := hq hf; exact ⟨w, List.mem_cons_of_mem _ hw⟩) hi.crop (fun q hq => hi.mask q hq) hi.tr
        rw [ih _ m cur hl hi' hs', asked]
        have e : (s.step c mill (.draw none)).kept = s.kept ++ [.state s.current] := rfl
        rw [e, List.map_append, List.map_singleton, List.append_assoc, List.singleton_append]
        congr 2
        cases cur with
        | none => rw [hi.nothing rfl]; rfl
        | some k =>
          obtain ⟨i, h1, h2⟩ := hi.current k rfl
          rw [h1]
          exact (Says.step (c := c) h2).final
      | some r =>
        obtain ⟨h1, h2⟩ := hl
        have hi0 := hi.tail ⟨fun _ _ => by simp, fun _ => by simp, fun _ _ => by simp⟩
        obtain ⟨h3, h4⟩ := hi0.saved (s.mem.tr r) (.caller r) rfl (fun q hq => by cases hq; exact h1)
          (hs _ (.inl ⟨r, by rw [hi.tr]⟩))
        have hi' : Inv c mill points (s.step c mill (.draw (some r))) m cur p :=
          ⟨h3.dash, h3.crop, h3.mask, h3.tr, h3.cache, h3.current, h3.nothing⟩
        rw [ih _ m cur h2 hi' hs', asked]
        have e : (s.step c mill (.draw (some r))).kept = s.kept ++ [.state (s.save mill (s.mem.tr r) (.caller r)).2] := rfl
        rw [e, List.map_append, List.map_singleton, List.append_assoc, List.singleton_append]
        congr 2
        rw [← hi.tr]
        cases hk : (s.mem.tr r).meant mill with
        | none => rw [hk] at h4; rw [show (s.save mill (s.mem.tr r) (.caller r)).2 = none from h4]; rfl
        | some k =>
          rw [hk] at h4
          obtain ⟨i, h5, h6⟩ := h4
          rw [h5]
          exact Says.final (s := s.step c mill (.draw (some r))) h6
    | setTransparency v =>
      have hi0 := hi.tail ⟨fun _ _ => by simp, fun _ => by simp, fun _ _ => by simp⟩
      obtain ⟨h3, h4⟩ := hi0.saved v (.own v.alpha) rfl (fun q hq => by cases hq) (hs _ (.inr (.inr List.mem_cons_self)))
      have hi' : Inv c mill points (s.step c mill (.setTransparency v)) m (v.meant mill) p := by
        refine ⟨h3.dash, h3.crop, h3.mask, h3.tr, h3.cache, fun k hk => ?_, fun hk => ?_⟩
        · rw [hk] at h4; exact h4
        · rw [hk] at h4; exact h4
      rw [ih _ m (v.meant mill) hl hi' hs', asked]
      have e : (s.step c mill (.setTransparency v)).kept = s.kept := by
        simp only [State.step]; unfold State.save; split
        · rfl
        · split <;> rfl
      rw [e]
    | clearTransparency =>
      have hi0 := hi.tail ⟨fun _ _ => by simp, fun _ => by simp, fun _ _ => by simp⟩
      rw [ih (s.step c mill .clearTransparency) m none hl ⟨hi0.dash, hi0.crop, hi0.mask, hi0.tr, hi0.cache, fun k hk => by simp at hk, fun _ => rfl⟩ hs', asked]
      rfl

end Verif.Caller
