import Verif.Lemmas.Content.Styles
/- Drawing with a font whose map of characters has grown. -/
namespace Verif.Content
open Drawing

/-- `f'` is `f` with more characters. -/
def FontLike (f f' : Font) : Prop :=
  ∃ m, f' = { f with run := { f.run with map := m } } ∧ ∀ k g, f.run.map.val k = some g → m.val k = some g

theorem FontLike.refl (f : Font) : FontLike f f := ⟨f.run.map, rfl, fun _ _ h => h⟩

theorem FontLike.trans {a b c : Font} (h : FontLike a b) (h' : FontLike b c) : FontLike a c := by
  obtain ⟨m, rfl, hm⟩ := h
  obtain ⟨m', rfl, hm'⟩ := h'
  exact ⟨m', rfl, fun k g hk => hm' k g (hm k g hk)⟩

theorem FontLike.val {f f' : Font} (h : FontLike f f') {k g : Nat} (hk : f.run.map.val k = some g) : f'.run.map.val k = some g := by
  obtain ⟨m, rfl, hm⟩ := h
  exact hm k g hk

theorem FontLike.isSome {f f' : Font} (h : FontLike f f') {k : Nat} (hk : (f.run.map.val k).isSome) : (f'.run.map.val k).isSome := by
  obtain ⟨g, hg⟩ := Option.isSome_iff_exists.1 hk
  rw [h.val hg]; rfl

theorem sumWidth_like (f : TextRun.RunFont) (m : TTF.CharMap) (hm : ∀ k g, f.map.val k = some g → m.val k = some g) (space : Int) :
    ∀ (l : List (Nat × Nat)) (left : Nat × Nat), (∀ p ∈ l, (f.map.val p.2).isSome) →
      TextRun.sumWidth { f with map := m } space left l = TextRun.sumWidth f space left l
  | [], _, _ => rfl
  | (i, r) :: l, left, h => by
    obtain ⟨g, hg⟩ := Option.isSome_iff_exists.1 (h (i, r) (by simp))
    have hg : f.map.val r = some g := hg
    simp only [TextRun.sumWidth, hg, hm r g hg]
    rw [sumWidth_like f m hm space l (r, g) fun p hp => h p (by simp [hp])]
    rfl

theorem createContent_like {f f' : Font} (h : FontLike f f') (text : List Nat) (size cs : ℚ) (rect : Option Units.Rect)
    (ht : ∀ r ∈ text, (f.run.map.val r).isSome) : createContent f' text size cs rect = createContent f text size cs rect := by
  obtain ⟨m, rfl, hm⟩ := h
  simp only [createContent]
  rw [sumWidth_like f.run m hm _ _ _ fun p hp => ht _ (mem_withIndex _ _ _ hp)]
  rfl

/-- The characters of an item are in the map of its font. -/
def Known (e : Env) (i : Item) : Prop := ∀ t, i = .text t → ∀ r ∈ t.text, ((e.fonts t.font).run.map.val r).isSome

theorem addText_like {e e' : Env} {s : St} {cell : Bool} {rect : Option Units.Rect} {opt : CellOption} {text : List Nat}
    (hf : FontLike (e.fonts (s.cur.font + 1)) (e'.fonts (s.cur.font + 1)))
    (hk : ∀ i ∈ s.pages.getD s.page [], Known e i)
    (ht : ∀ r ∈ text, ((e.fonts (s.cur.font + 1)).run.map.val r).isSome) :
    s.addText e' (newText s.cur cell rect opt) text = s.addText e (newText s.cur cell rect opt) text := by
  have hx : extend e' ((joinTarget (s.pages.getD s.page []) (newText s.cur cell rect opt)).getD (newText s.cur cell rect opt)) text =
      extend e ((joinTarget (s.pages.getD s.page []) (newText s.cur cell rect opt)).getD (newText s.cur cell rect opt)) text := by
    have one : ∀ c : TextItem, c.font = s.cur.font + 1 → (∀ r ∈ c.text, ((e.fonts c.font).run.map.val r).isSome) → extend e' c text = extend e c text := by
      intro c hc hct
      unfold extend
      rw [hc] at hct ⊢
      rw [createContent_like hf]
      intro r hr
      rcases List.mem_append.1 hr with hr | hr
      · exact hct r hr
      · exact ht r hr
    cases hj : joinTarget (s.pages.getD s.page []) (newText s.cur cell rect opt) with
    | none => exact one _ rfl (by simp [newText])
    | some c =>
      unfold joinTarget at hj
      split at hj
      · next c' hl =>
        split at hj
        · next hs =>
          obtain rfl := Option.some.inj hj
          have hm := List.mem_of_getLast? hl
          have hfont : c'.font = s.cur.font + 1 := by
            simp only [isSame, Bool.and_eq_true, beq_iff_eq] at hs
            exact hs.1.1.1.1.1.1.2
          exact one c' hfont (hk _ hm c' rfl)
        · exact absurd hj (by simp)
      · exact absurd hj (by simp)
  simp only [St.addText, appendContentText, hx]

def isText : Call → Bool
  | .text _ | .cell _ _ | .cellWithOption _ _ _ _ => true
  | _ => false

theorem step_like {e e' : Env} {s : St} {c : Call} (hcfg : e'.cfg = e.cfg)
    (hf : isText c = true → FontLike (e.fonts (s.cur.font + 1)) (e'.fonts (s.cur.font + 1)))
    (hk : ∀ i ∈ s.pages.getD s.page [], Known e i)
    (ht : ∀ r ∈ written c, ((e.fonts (s.cur.font + 1)).run.map.val r).isSome) : Content.step e' s c = Content.step e s c := by
  have hr : ∀ r, rectPoints e' r = rectPoints e r := fun r => by simp only [rectPoints, hcfg]
  cases c with
  | text t => exact addText_like (hf rfl) hk ht
  | cell r t => simp only [Content.step, hr]; exact addText_like (hf rfl) hk ht
  | cellWithOption r t o tr => simp only [Content.step, hr]; exact addText_like (hf rfl) hk ht
  | _ => simp only [Content.step, hcfg]

/-- The characters of the items stay known. -/
theorem step_known {e : Env} {s s' : St} {c : Call} (h : Content.step e s c = some s')
    (hk : ∀ p ∈ s.pages, ∀ i ∈ p, Known e i)
    (ht : ∀ r ∈ written c, ((e.fonts (s.cur.font + 1)).run.map.val r).isSome) : ∀ p ∈ s'.pages, ∀ i ∈ p, Known e i := by
  have cur : ∀ i ∈ s.pages.getD s.page [], Known e i := by
    intro i hi
    rw [List.getD_eq_getElem?_getD] at hi
    cases hx : s.pages[s.page]? with
    | none => simp [hx] at hi
    | some p => rw [hx] at hi; exact hk p (List.mem_of_getElem? hx) i hi
  have set : ∀ items : List Item, (∀ i ∈ items, Known e i) → ∀ p ∈ s.pages.set s.page items, ∀ i ∈ p, Known e i := by
    intro items hi p hp i hip
    rcases List.mem_or_eq_of_mem_set hp with hp | rfl
    · exact hk p hp i hip
    · exact hi i hip
  cases step_did h with
  | addPage x hpg hc =>
    rw [hpg]; intro p hpm i hi
    rw [List.mem_append, List.mem_singleton] at hpm
    rcases hpm with hpm | rfl
    · exact hk p hpm i hi
    · simp at hi
  | setPage k hpg hc => rw [hpg]; exact hk
  | keep _ ha hs hw hpg hc => rw [hpg]; exact hk
  | item _ ha hs hw i hi hpg hc =>
    rw [hpg]
    refine set _ fun j hj => ?_
    rw [List.mem_append, List.mem_singleton] at hj
    rcases hj with hj | rfl
    · exact cur j hj
    · exact fun t ht' => absurd ht' (hi t)
  | text _ ha hs t cell rect opt ht' hqq hadd =>
    unfold St.addText at hadd
    split at hadd
    · exact absurd hadd (by simp)
    · next items x y hap =>
      have hpg : s'.pages = s.pages.set s.page items := by rw [← Option.some.inj hadd]
      rw [hpg]
      refine set _ fun j hj => ?_
      obtain ⟨pre, c', t2, hc, hx, rfl, -, -⟩ := append_cases hap
      rw [List.mem_append, List.mem_singleton] at hj
      have hc' : c'.font = s.cur.font + 1 ∧ ∀ r ∈ c'.text, ((e.fonts (s.cur.font + 1)).run.map.val r).isSome := by
        rcases hc with ⟨hpre, hsame⟩ | ⟨hpre, rfl, -⟩
        · have hfont : c'.font = s.cur.font + 1 := by
            rw [ht'] at hsame
            simp only [isSame, Bool.and_eq_true, beq_iff_eq] at hsame
            exact hsame.1.1.1.1.1.1.2
          exact ⟨hfont, fun r hr => hfont ▸ cur (.text c') (by rw [hpre]; simp) c' rfl r hr⟩
        · rw [ht']; exact ⟨rfl, by simp [newText]⟩
      rcases hj with hj | rfl
      · refine cur j ?_
        rcases hc with ⟨hpre, -⟩ | ⟨hpre, -⟩ <;> rw [hpre] <;> simp [hj]
      · intro t3 h3 r hr
        obtain rfl := Item.text.inj h3
        unfold extend at hx
        obtain ⟨q, _, rfl⟩ := Option.map_eq_some_iff.1 hx
        rw [hc'.1]
        rcases List.mem_append.1 hr with hr | hr
        · exact hc'.2 r hr
        · exact ht r hr

end Verif.Content
