import Verif.Lemmas.Content.PageReads
/- Rounded operators run like the exact ones. -/
namespace Verif.Content
open ContentReader
open Paint

def levelKind : Level → Option Nat × Option Nat × Bool
  | .page => (none, none, false)
  | .path p => (some p.length, none, false)
  | .clip p _ => (none, some p.length, false)
  | .text _ _ => (none, none, true)

/-- Two readers that agree but for rounded numbers. -/
structure ReadAlike (r r' : Reader) : Prop where
  level : levelKind r.level = levelKind r'.level
  font : r.g.font.isSome = r'.g.font.isSome
  stack : r.stack.map (·.font.isSome) = r'.stack.map (·.font.isSome)
  marks : r.marks.map kindOf = r'.marks.map kindOf

theorem levelKind_page {l l' : Level} (h : levelKind l = levelKind l') (hp : l = .page) : l' = .page := by
  subst hp; cases l' <;> simp [levelKind] at h ⊢

theorem show_kinds (wd : Widths) (g g' : GState) (f f' : Nat) (s s' : ℚ) : ∀ (items : List TextShow.Item) (p p' : ℚ × ℚ),
    (show' wd g f s p items).2.map kindOf = (show' wd g' f' s' p' items).2.map kindOf
  | [], _, _ => rfl
  | .code c :: rest, p, p' => by
    simp only [show', List.map_cons, kindOf, List.cons.injEq, true_and]
    exact show_kinds wd g g' f f' s s' rest _ _
  | .adjust n :: rest, p, p' => by simp only [show']; exact show_kinds wd g g' f f' s s' rest _ _

theorem alike_state {r r' r1 : Reader} (h : ReadAlike r r') (f f' : GState → GState)
    (hf : ∀ g g' : GState, g.font.isSome = g'.font.isSome → (f g).font.isSome = (f' g').font.isSome)
    (hr : exec.state r f = some r1) : ∃ r1', exec.state r' f' = some r1' ∧ ReadAlike r1 r1' := by
  obtain ⟨g, st, lv, mk⟩ := r
  obtain ⟨g', st', lv', mk'⟩ := r'
  obtain ⟨h1, h2, h3, h4⟩ := h
  simp only at h1 h2 h3 h4
  cases lv <;> cases lv' <;> simp [levelKind] at h1 <;> simp [exec.state] at hr ⊢ <;> subst hr <;>
    exact ⟨by simp [levelKind], hf _ _ h2, h3, h4⟩

theorem alike_extend {r r' r1 : Reader} (h : ReadAlike r r') (s s' : Seg)
    (hr : exec.extend r s = some r1) : ∃ r1', exec.extend r' s' = some r1' ∧ ReadAlike r1 r1' := by
  obtain ⟨g, st, lv, mk⟩ := r
  obtain ⟨g', st', lv', mk'⟩ := r'
  obtain ⟨h1, h2, h3, h4⟩ := h
  simp only at h1 h2 h3 h4
  cases lv <;> cases lv' <;> simp [levelKind] at h1 <;> simp [exec.extend] at hr ⊢ <;> subst hr <;>
    exact ⟨by simp [levelKind, h1], h2, h3, h4⟩

theorem alike_finish {r r' r1 : Reader} (h : ReadAlike r r') (cl : Bool) (k : Option PaintKind)
    (hr : exec.finish r cl k = some r1) : ∃ r1', exec.finish r' cl k = some r1' ∧ ReadAlike r1 r1' := by
  obtain ⟨g, st, lv, mk⟩ := r
  obtain ⟨g', st', lv', mk'⟩ := r'
  obtain ⟨h1, h2, h3, h4⟩ := h
  simp only at h1 h2 h3 h4
  cases lv <;> cases lv' <;> simp [levelKind] at h1 <;> simp [exec.finish] at hr ⊢ <;> subst hr <;>
    refine ⟨rfl, h2, h3, ?_⟩ <;> cases k <;> cases cl <;> simp [h4, kindOf, h1]

theorem alike_begin {r r' r1 : Reader} (h : ReadAlike r r') (s s' : Seg)
    (hr : (match r.level with
      | .page => some { r with level := .path [s] }
      | .path p => some { r with level := .path (p ++ [s]) }
      | _ => none) = some r1) : ∃ r1', (match r'.level with
      | .page => some { r' with level := .path [s'] }
      | .path p => some { r' with level := .path (p ++ [s']) }
      | _ => none) = some r1' ∧ ReadAlike r1 r1' := by
  obtain ⟨g, st, lv, mk⟩ := r
  obtain ⟨g', st', lv', mk'⟩ := r'
  obtain ⟨h1, h2, h3, h4⟩ := h
  simp only at h1 h2 h3 h4
  cases lv <;> cases lv' <;> simp [levelKind] at h1 <;> simp at hr ⊢ <;> subst hr <;>
    exact ⟨by simp [levelKind, h1], h2, h3, h4⟩

theorem exec_alike {wd : Widths} {r r' r1 : Reader} {o o' : Op} (h : ReadAlike r r') (hn : NearOp o' o)
    (hr : exec wd r o = some r1) : ∃ r1', exec wd r' o' = some r1' ∧ ReadAlike r1 r1' := by
  have same : ∀ {o : Op}, (∀ m, o ≠ .cm m) → (∀ x, o ≠ .w x) → (∀ a p, o ≠ .d a p) → (∀ c, o ≠ .fillColour c) →
      (∀ c, o ≠ .strokeColour c) → (∀ p, o ≠ .m p) → (∀ p, o ≠ .l p) → (∀ p q s, o ≠ .c p q s) →
      (∀ x y w h, o ≠ .re x y w h) → (∀ x y, o ≠ .Td x y) → (∀ n s, o ≠ .Tf n s) → (∀ x, o ≠ .Tc x) →
      exec wd r o = some r1 → ∃ r1', exec wd r' o = some r1' ∧ ReadAlike r1 r1' := by
    intro o n1 n2 n3 n4 n5 n6 n7 n8 n9 n10 n11 n12 hr
    obtain ⟨h1, h2, h3, h4⟩ := h
    cases o with
    | q =>
      simp only [exec] at hr ⊢
      split at hr
      · rename_i hp
        obtain rfl := Option.some.inj hr
        rw [if_pos (levelKind_page h1 hp)]
        exact ⟨_, rfl, h1, h2, by simp [h2, h3], h4⟩
      · exact absurd hr (by simp)
    | Q =>
      obtain ⟨g, st, lv, mk⟩ := r
      obtain ⟨g', st', lv', mk'⟩ := r'
      simp only at h1 h2 h3 h4
      cases lv <;> cases lv' <;> simp [levelKind] at h1 <;> simp [exec] at hr
      cases st with
      | nil => simp at hr
      | cons a st =>
        cases st' with
        | nil => simp at h3
        | cons a' st' =>
          simp at hr h3
          subst hr
          exact ⟨⟨a', st', .page, mk'⟩, by simp [exec], rfl, h3.1, by simpa using h3.2, h4⟩
    | gs n => simp only [exec] at hr ⊢; exact alike_state ⟨h1, h2, h3, h4⟩ _ _ (by intro _ _ hh; exact hh) hr
    | J n => simp only [exec] at hr ⊢; exact alike_state ⟨h1, h2, h3, h4⟩ _ _ (by intro _ _ hh; exact hh) hr
    | j n => simp only [exec] at hr ⊢; exact alike_state ⟨h1, h2, h3, h4⟩ _ _ (by intro _ _ hh; exact hh) hr
    | h => simp only [exec] at hr ⊢; exact alike_extend ⟨h1, h2, h3, h4⟩ _ _ hr
    | n => simp only [exec] at hr ⊢; exact alike_finish ⟨h1, h2, h3, h4⟩ _ _ hr
    | paint cl k => simp only [exec] at hr ⊢; exact alike_finish ⟨h1, h2, h3, h4⟩ _ _ hr
    | W eo =>
      obtain ⟨g, st, lv, mk⟩ := r
      obtain ⟨g', st', lv', mk'⟩ := r'
      simp only at h1 h2 h3 h4
      cases lv <;> cases lv' <;> simp [levelKind] at h1 <;> simp [exec] at hr ⊢ <;> subst hr
      exact ⟨by simp [levelKind, h1], h2, h3, h4⟩
    | BT =>
      simp only [exec] at hr ⊢
      split at hr
      · rename_i hp
        obtain rfl := Option.some.inj hr
        rw [if_pos (levelKind_page h1 hp)]
        exact ⟨_, rfl, rfl, h2, h3, h4⟩
      · exact absurd hr (by simp)
    | ET =>
      obtain ⟨g, st, lv, mk⟩ := r
      obtain ⟨g', st', lv', mk'⟩ := r'
      simp only at h1 h2 h3 h4
      cases lv <;> cases lv' <;> simp [levelKind] at h1 <;> simp [exec] at hr ⊢ <;> subst hr
      exact ⟨by simp [levelKind], h2, h3, h4⟩
    | TJ items =>
      obtain ⟨g, st, lv, mk⟩ := r
      obtain ⟨g', st', lv', mk'⟩ := r'
      simp only at h1 h2 h3 h4
      cases lv <;> cases lv' <;> simp [levelKind] at h1 <;> simp [exec] at hr
      cases hf : g.font with
      | none => rw [hf] at hr; simp at hr
      | some x =>
        rw [hf] at hr h2
        cases hf' : g'.font with
        | none => rw [hf'] at h2; simp at h2
        | some x' =>
          simp at hr
          subst hr
          refine ⟨_, by simp [exec, hf']; rfl, by simp [levelKind], by simp [hf, hf'], h3, ?_⟩
          simp only [List.map_append, h4]
          rw [show_kinds wd g g' x.1 x'.1 x.2 x'.2]
    | image n =>
      simp only [exec] at hr ⊢
      split at hr
      · rename_i hp
        obtain rfl := Option.some.inj hr
        rw [if_pos (levelKind_page h1 hp)]
        exact ⟨_, rfl, h1, h2, h3, by simp [h4, kindOf]⟩
      · exact absurd hr (by simp)
    | template n =>
      simp only [exec] at hr ⊢
      split at hr
      · rename_i hp
        obtain rfl := Option.some.inj hr
        rw [if_pos (levelKind_page h1 hp)]
        exact ⟨_, rfl, h1, h2, h3, by simp [h4, kindOf]⟩
      · exact absurd hr (by simp)
    | cm m => exact absurd rfl (n1 _)
    | w x => exact absurd rfl (n2 _)
    | d a p => exact absurd rfl (n3 _ _)
    | fillColour c => exact absurd rfl (n4 _)
    | strokeColour c => exact absurd rfl (n5 _)
    | m p => exact absurd rfl (n6 _)
    | l p => exact absurd rfl (n7 _)
    | c p q s => exact absurd rfl (n8 _ _ _)
    | re x y w h => exact absurd rfl (n9 _ _ _ _)
    | Td x y => exact absurd rfl (n10 _ _)
    | Tf n s => exact absurd rfl (n11 _ _)
    | Tc x => exact absurd rfl (n12 _)
  cases o with
  | cm m =>
    cases o' with
    | cm m' =>
      simp only [exec] at hr ⊢
      split at hr
      · rename_i hp
        obtain rfl := Option.some.inj hr
        rw [if_pos (levelKind_page h.level hp)]
        exact ⟨_, rfl, h.level, h.font, h.stack, h.marks⟩
      · exact absurd hr (by simp)
    | _ => simp [NearOp] at hn
  | w x =>
    cases o' with
    | w x' => simp only [exec] at hr ⊢; exact alike_state h _ _ (by intro _ _ hh; exact hh) hr
    | _ => simp [NearOp] at hn
  | d a p =>
    cases o' with
    | d a' p' => simp only [exec] at hr ⊢; exact alike_state h _ _ (by intro _ _ hh; exact hh) hr
    | _ => simp [NearOp] at hn
  | fillColour c =>
    cases o' with
    | fillColour c' => simp only [exec] at hr ⊢; exact alike_state h _ _ (by intro _ _ hh; exact hh) hr
    | _ => simp [NearOp] at hn
  | strokeColour c =>
    cases o' with
    | strokeColour c' => simp only [exec] at hr ⊢; exact alike_state h _ _ (by intro _ _ hh; exact hh) hr
    | _ => simp [NearOp] at hn
  | m p =>
    cases o' with
    | m p' => simp only [exec] at hr ⊢; exact alike_begin h _ _ hr
    | _ => simp [NearOp] at hn
  | re x y w ht =>
    cases o' with
    | re x' y' w' h' => simp only [exec] at hr ⊢; exact alike_begin h _ _ hr
    | _ => simp [NearOp] at hn
  | l p =>
    cases o' with
    | l p' => simp only [exec] at hr ⊢; exact alike_extend h _ _ hr
    | _ => simp [NearOp] at hn
  | c p q s =>
    cases o' with
    | c p' q' s' => simp only [exec] at hr ⊢; exact alike_extend h _ _ hr
    | _ => simp [NearOp] at hn
  | Td x y =>
    cases o' with
    | Td x' y' =>
      obtain ⟨g, st, lv, mk⟩ := r
      obtain ⟨g', st', lv', mk'⟩ := r'
      obtain ⟨h1, h2, h3, h4⟩ := h
      simp only at h1 h2 h3 h4
      cases lv <;> cases lv' <;> simp [levelKind] at h1 <;> simp [exec] at hr ⊢ <;> subst hr
      exact ⟨by simp [levelKind], h2, h3, h4⟩
    | _ => simp [NearOp] at hn
  | Tf n s =>
    cases o' with
    | Tf n' s' => simp only [exec] at hr ⊢; exact alike_state h _ _ (by intro _ _ _; rfl) hr
    | _ => simp [NearOp] at hn
  | Tc x =>
    cases o' with
    | Tc x' => simp only [exec] at hr ⊢; exact alike_state h _ _ (by intro _ _ hh; exact hh) hr
    | _ => simp [NearOp] at hn
  | _ =>
    cases o' <;> first
      | (simp only [NearOp, reduceCtorEq] at hn; done)
      | (simp only [NearOp] at hn
         try rw [hn]
         exact same (by simp) (by simp) (by simp) (by simp) (by simp) (by simp) (by simp) (by simp) (by simp) (by simp) (by simp)
           (by simp) hr)

theorem run_alike {wd : Widths} : ∀ {o o' : List Op} {r r' r1 : Reader}, ReadAlike r r' → List.Forall₂ NearOp o' o →
    run wd r o = some r1 → ∃ r1', run wd r' o' = some r1' ∧ ReadAlike r1 r1'
  | [], _, r, r', r1, h, .nil, hr => by
    simp only [run, Option.some.injEq] at hr
    subst hr
    exact ⟨r', rfl, h⟩
  | x :: o, _, r, r', r1, h, .cons hx ht, hr => by
    simp only [run] at hr
    obtain ⟨r2, e1, e2⟩ := Option.bind_eq_some_iff.1 hr
    obtain ⟨r2', e1', h2⟩ := exec_alike h hx e1
    obtain ⟨r1', e2', h1⟩ := run_alike h2 ht e2
    exact ⟨r1', by simp [run, e1', e2'], h1⟩

theorem alike_refl (r : Reader) : ReadAlike r r := ⟨rfl, rfl, rfl, rfl⟩

end Verif.Content
