import Verif.Lemmas.Content.Join
/- The style of every glyph. -/
namespace Verif.Content
open Paint Drawing

/-- What a call does, in detail. -/
inductive Did (e : Env) (s s' : St) : Call → Prop where
  | addPage (h : ℚ) (hp : s'.pages = s.pages ++ [[]]) (hc : s'.page = s.pages.length) : Did e s s' (.addPage h)
  | setPage (n : Nat) (hp : s'.pages = s.pages) (hc : s'.page = if n < s.pages.length then n else s.page) :
      Did e s s' (.setPage n)
  | keep (c : Call) (ha : ∀ h, c ≠ .addPage h) (hs : ∀ n, c ≠ .setPage n) (hw : written c = [])
      (hp : s'.pages = s.pages) (hc : s'.page = s.page) : Did e s s' c
  | item (c : Call) (ha : ∀ h, c ≠ .addPage h) (hs : ∀ n, c ≠ .setPage n) (hw : written c = []) (i : Item)
      (hi : ∀ t, i ≠ .text t) (hp : s'.pages = s.pages.set s.page (s.pages.getD s.page [] ++ [i]))
      (hc : s'.page = s.page) : Did e s s' c
  | text (c : Call) (ha : ∀ h, c ≠ .addPage h) (hs : ∀ n, c ≠ .setPage n) (t : TextItem) (cell : Bool)
      (rect : Option Units.Rect) (opt : CellOption) (ht : t = newText s.cur cell rect opt)
      (hq : asked e s c = some (t, written c)) (h : s.addText e t (written c) = some s') : Did e s s' c

theorem step_did {e : Env} {s s' : St} {c : Call} (h : step e s c = some s') : Did e s s' c := by
  cases c with
  | addPage x => simp only [step, Option.some.injEq] at h; subst h; exact .addPage x rfl rfl
  | setPage n =>
    simp only [step, Option.some.injEq] at h; subst h
    refine .setPage n ?_ ?_ <;> split <;> rfl
  | text t => exact .text _ (by simp) (by simp) _ _ _ _ rfl rfl h
  | cell r t => exact .text _ (by simp) (by simp) _ _ _ _ rfl rfl h
  | cellWithOption r t o tr => exact .text _ (by simp) (by simp) _ _ _ _ rfl rfl h
  | setLineType a b =>
    simp only [step, Option.some.injEq] at h; subst h
    exact .item _ (by simp) (by simp) rfl (.lineType a b)
      (by intro t; cases a <;> cases b <;> simp) (modify_eq_set _ _ _) rfl
  | _ =>
    simp only [step, Option.some.injEq] at h; subst h
    first
    | exact .keep _ (by simp) (by simp) rfl rfl rfl
    | exact .item _ (by simp) (by simp) rfl _ (by simp) (modify_eq_set _ _ _) rfl

def curStyle (c : Cur) : Style := ⟨c.font, c.fontSize, c.charSpacing, c.colour.map (·.colour)⟩

theorem addText_cur {e : Env} {s s' : St} {t : TextItem} {text : List Nat} (h : s.addText e t text = some s') :
    ∃ x y, s'.cur = { s.cur with x := x, y := y } := by
  unfold St.addText at h
  split at h
  · exact absurd h (by simp)
  · obtain rfl := Option.some.inj h; exact ⟨_, _, rfl⟩

theorem step_style {e : Env} {s s' : St} {c : Call} (h : step e s c = some s') :
    curStyle s'.cur = (curStyle s.cur).after e.cfg c := by
  cases c with
  | setPage n => simp only [step, Option.some.injEq] at h; subst h; split <;> rfl
  | setTextColour c => simp only [step, Option.some.injEq] at h; subst h; cases c <;> rfl
  | text t => obtain ⟨x, y, hx⟩ := addText_cur h; rw [hx]; rfl
  | cell r t => obtain ⟨x, y, hx⟩ := addText_cur h; rw [hx]; rfl
  | cellWithOption r t o tr => obtain ⟨x, y, hx⟩ := addText_cur h; rw [hx]; rfl
  | _ => simp only [step, Option.some.injEq] at h; subst h; rfl

/-- Styles of the glyphs of an item. -/
def itemStyle (t : TextItem) : Style := ⟨t.font - 1, t.fontSize, t.charSpacing, t.colour.map (·.colour)⟩

def styles1 (e : Env) : Item → List (Nat × Style)
  | .text t => (itemCodes e t).map (·, itemStyle t)
  | _ => []

def styles (e : Env) (items : List Item) : List (Nat × Style) := items.flatMap (styles1 e)

theorem styles_snoc (e : Env) (a : List Item) (i : Item) : styles e (a ++ [i]) = styles e a ++ styles1 e i := by
  simp [styles]

theorem isSame_fields {c n : TextItem} (h : isSame c n = true) : c.rectangle = none ∧ c.colour = n.colour ∧
    c.grayFill = n.grayFill ∧ c.font = n.font ∧ c.fontSize = n.fontSize ∧ c.fontStyle = n.fontStyle ∧
    c.charSpacing = n.charSpacing ∧ c.setXCount = n.setXCount ∧ c.y = n.y := by
  simp only [isSame, Bool.and_eq_true, Option.isNone_iff_eq_none, beq_iff_eq] at h
  obtain ⟨⟨⟨⟨⟨⟨⟨⟨⟨h1, h2⟩, h3⟩, h4⟩, h5⟩, h6⟩, h7⟩, h8⟩, h9⟩, _⟩ := h
  exact ⟨h1, h2, h3, h4, h5, h6, h7, h8, h9⟩

/-- A text call adds exactly its own glyphs with the current style. -/
theorem append_styles {e : Env} {items items' : List Item} {cur : Cur} {cell : Bool} {rect : Option Units.Rect}
    {opt : CellOption} {text : List Nat} {x y : ℚ}
    (h : appendContentText e items (newText cur cell rect opt) text = some (items', x, y)) :
    styles e items' = styles e items ++
      (text.filterMap (e.fonts (cur.font + 1)).run.map.val).map (·, curStyle cur) := by
  obtain ⟨pre, c', t, hc, hx, rfl, -, -⟩ := append_cases h
  obtain ⟨al, htext⟩ := extend_alike hx
  rw [styles_snoc]
  rcases hc with ⟨rfl, hs⟩ | ⟨rfl, rfl, -⟩
  · obtain ⟨-, f2, -, f4, f5, -, f7, -, -⟩ := isSame_fields hs
    rw [styles_snoc]
    have e1 : itemStyle t = curStyle cur := by
      unfold itemStyle curStyle
      rw [← al.font, ← al.size, ← al.spacing, ← al.colour, f2, f4, f5, f7]; rfl
    have e2 : itemStyle c' = curStyle cur := by
      unfold itemStyle curStyle; rw [f2, f4, f5, f7]; rfl
    simp only [styles1, itemCodes, e1, e2, htext, ← al.font, f4, List.filterMap_append, List.map_append, List.append_assoc]
    rfl
  · have e1 : itemStyle t = curStyle cur := by
      unfold itemStyle curStyle
      rw [← al.font, ← al.size, ← al.spacing, ← al.colour]; rfl
    simp only [styles1, itemCodes, e1, htext, ← al.font]
    rfl

theorem getD_append_nil {l : List (List Item)} (m : Nat) : (l ++ [[]]).getD m [] = l.getD m [] := by
  simp only [List.getD_eq_getElem?_getD]
  by_cases hm : m < l.length
  · rw [List.getElem?_append_left hm]
  · rw [List.getElem?_append_right (by omega), List.getElem?_eq_none (l := l) (i := m) (by omega)]
    cases hk : m - l.length <;> simp

theorem drawn_other {e : Env} {n cur count : Nat} {st : Style} {c : Call} (ha : ∀ h, c ≠ .addPage h)
    (hs : ∀ k, c ≠ .setPage k) (rest : List Call) : drawn e n st cur count (c :: rest) =
      (if cur = n then ((written c).filterMap (e.fonts (st.font + 1)).run.map.val).map (·, st) else []) ++
        drawn e n (st.after e.cfg c) cur count rest := by
  cases c <;> first | rfl | (exact absurd rfl (ha _)) | (exact absurd rfl (hs _))

theorem steps_styles {e : Env} (n : Nat) : ∀ (calls : List Call) (s s' : St), steps e s calls = some s' →
    s.page < s.pages.length →
    styles e (s'.pages.getD n []) =
      styles e (s.pages.getD n []) ++ drawn e n (curStyle s.cur) s.page s.pages.length calls := by
  intro calls
  induction calls with
  | nil =>
    intro s s' h _
    obtain rfl : s = s' := by simpa [steps] using h
    simp [drawn]
  | cons c calls ih =>
    intro s s' h hp
    simp only [steps] at h
    obtain ⟨s1, h1, h2⟩ := Option.bind_eq_some_iff.1 h
    have hst := step_style h1
    have set_at : ∀ (items : List Item), s1.pages = s.pages.set s.page items →
        s1.pages.getD n [] = if s.page = n then items else s.pages.getD n [] := by
      intro items hpg
      rw [hpg, List.getD_eq_getElem?_getD]
      by_cases hn : s.page = n
      · subst hn; simp [hp]
      · rw [List.getElem?_set_ne hn, if_neg hn, ← List.getD_eq_getElem?_getD]
    cases step_did h1 with
    | addPage x hpg hc =>
      rw [ih s1 s' h2 (by rw [hpg, hc]; simp), hpg, hc, getD_append_nil, hst]
      simp [drawn, Style.after]
    | setPage k hpg hc =>
      rw [ih s1 s' h2 (by rw [hpg, hc]; split <;> assumption), hpg, hc, hst]
      simp [drawn, Style.after]
    | keep _ ha hs hw hpg hc =>
      rw [ih s1 s' h2 (by rw [hpg, hc]; exact hp), hpg, hc, hst, drawn_other ha hs, hw]
      simp
    | item _ ha hs hw i hi hpg hc =>
      rw [ih s1 s' h2 (by rw [hpg, hc]; simpa using hp), set_at _ hpg, hc, hst, drawn_other ha hs, hw, hpg]
      have : styles1 e i = [] := by cases i <;> first | rfl | exact absurd rfl (hi _)
      split
      · next hn => rw [styles_snoc, this, hn]; simp
      · simp
    | text _ ha hs t cell rect opt ht hq hadd =>
      unfold St.addText at hadd
      split at hadd
      · exact absurd hadd (by simp)
      · next items x y hap =>
        have hpg : s1.pages = s.pages.set s.page items := by rw [← Option.some.inj hadd]
        have hc : s1.page = s.page := by rw [← Option.some.inj hadd]
        rw [ht] at hap
        rw [ih s1 s' h2 (by rw [hpg, hc]; simpa using hp), set_at _ hpg, hc, hst, drawn_other ha hs, hpg,
          ← List.append_assoc]
        congr 1
        · split
          · next hn => rw [append_styles hap, hn]; rfl
          · simp
        · simp

/-! ### Glyphs of a page -/

theorem glyphs_noTJ (wd : Widths) : ∀ (l : List Op), (∀ o ∈ l, ∀ it, o ≠ .TJ it) → ∀ (r r' : Reader),
    run wd r l = some r' → glyphs r'.marks = glyphs r.marks := by
  intro l
  induction l with
  | nil => intro _ r r' h; obtain rfl : r = r' := by simpa [run] using h
           rfl
  | cons o l ih =>
    intro hno r r' h
    rw [run_cons] at h
    obtain ⟨r1, h1, h2⟩ := Option.bind_eq_some_iff.1 h
    rw [ih (fun x hx => hno x (by simp [hx])) r1 r' h2]
    obtain ⟨g, st, lv, mk⟩ := r
    have hn := hno o (by simp)
    cases o <;> cases lv <;>
      simp [exec, exec.state, exec.extend, exec.finish] at h1 <;>
      first
      | (subst h1; rfl)
      | (subst h1; simp [glyphs_append, glyphs]; done)
      | (exact absurd rfl (hn _))
      | (cases st <;> simp at h1; subst h1; rfl)
      | (subst h1; dsimp only; rw [glyphs_append]; simp [glyphs]; split <;> simp)

theorem noTJ_item (e : Env) (i : Item) (hi : ∀ t, i ≠ .text t) : ∀ o ∈ ops e i, ∀ it, o ≠ .TJ it := by
  intro o ho it
  rintro rfl
  cases i with
  | text t => exact absurd rfl (hi t)
  | image i =>
    obtain ⟨wm, ma, ia, vf, hf, ix, x, y, ph, rc, cr, ext⟩ := i
    simp only [ops, imageOps, imageInner, rotateOps] at ho
    cases wm <;> cases cr <;> cases vf <;> cases hf <;> simp [ImageItem.clipRect, ImageItem.maskRotates] at ho <;>
      split at ho <;> simp at ho
  | polygon h pts st ext => cases pts <;> simp [ops, pathOps] at ho
  | clipPolygon h pts => cases pts <;> simp [ops, pathOps] at ho
  | lineType a b => cases a <;> cases b <;> simp [ops] at ho
  | gray st => cases st <;> simp [ops] at ho
  | rgb st => cases st <;> simp [ops] at ho
  | cmyk st => cases st <;> simp [ops] at ho
  | _ => simp [ops, rotateOps] at ho

theorem run_styles (wd : Widths) (e : Env) (rel : Nat × GState → Nat × Style → Prop) :
    ∀ (items : List Item), (∀ t, Item.text t ∈ items → ∀ g c, rel (c, textState t g) (c, itemStyle t)) →
    ∀ (r r' : Reader), r.level = .page → run wd r (pageOps e items) = some r' →
    ∃ l, glyphs r'.marks = glyphs r.marks ++ l ∧ List.Forall₂ rel l (styles e items) := by
  intro items
  induction items with
  | nil =>
    intro _ r r' _ h
    obtain rfl : r = r' := by simpa [pageOps, run] using h
    exact ⟨[], by simp, .nil⟩
  | cons i items ih =>
    intro hrel r r' hr h
    unfold pageOps at h
    rw [List.flatMap_cons, run_append] at h
    obtain ⟨r1, h1, h2⟩ := Option.bind_eq_some_iff.1 h
    obtain ⟨l, hl, hf⟩ := ih (fun t ht => hrel t (by simp [ht])) r1 r' (level_ops wd e i r r1 hr h1) h2
    cases hi : i with
    | text t =>
      subst hi
      have hv := view_text wd e t r hr
      rw [h1] at hv
      simp only [Option.map_some, Option.some.injEq, view, Prod.mk.injEq] at hv
      refine ⟨((itemCodes e t).map fun c => (c, textState t r.g)) ++ l, by rw [hl, hv.2.2.2, List.append_assoc], ?_⟩
      have : styles e (.text t :: items) = ((itemCodes e t).map (·, itemStyle t)) ++ styles e items := rfl
      rw [this]
      refine List.rel_append ?_ hf
      rw [List.forall₂_map_left_iff, List.forall₂_map_right_iff]
      exact List.forall₂_same.2 fun c _ => hrel t (by simp) r.g c
    | _ =>
      have hg := glyphs_noTJ wd _ (noTJ_item e i (by rw [hi]; simp)) r r1 h1
      refine ⟨l, by rw [hl, hg], ?_⟩
      have : styles e (i :: items) = styles e items := by rw [hi]; rfl
      rw [hi] at this
      rw [this]; exact hf

/-- Every text item has a font number above 0, and every text item was made or extended by the calls. -/
theorem steps_items {e : Env} (P : TextItem → Prop) (Q : Cur → Prop) (allowed : Call → Prop)
    (hnew : ∀ cur cell rect opt, Q cur → P (newText cur cell rect opt))
    (hext : ∀ c text t, P c → extend e c text = some t → P t)
    (hQ : ∀ s s' c, allowed c → step e s c = some s' → Q s.cur → Q s'.cur) :
    ∀ (calls : List Call) (s s' : St), steps e s calls = some s' → (∀ c ∈ calls, allowed c) → Q s.cur →
      (∀ p ∈ s.pages, ∀ t, Item.text t ∈ p → P t) → ∀ p ∈ s'.pages, ∀ t, Item.text t ∈ p → P t := by
  intro calls
  induction calls with
  | nil =>
    intro s s' h _ _ hp
    obtain rfl : s = s' := by simpa [steps] using h
    exact hp
  | cons c calls ih =>
    intro s s' h hal hq hp
    simp only [steps] at h
    obtain ⟨s1, h1, h2⟩ := Option.bind_eq_some_iff.1 h
    refine ih s1 s' h2 (fun x hx => hal x (by simp [hx])) (hQ s s1 c (hal c (by simp)) h1 hq) ?_
    have cur_page : ∀ t, Item.text t ∈ s.pages.getD s.page [] → P t := by
      intro t ht
      rw [List.getD_eq_getElem?_getD] at ht
      cases hx : s.pages[s.page]? with
      | none => simp [hx] at ht
      | some p => rw [hx] at ht; exact hp p (List.mem_of_getElem? hx) t ht
    cases step_did h1 with
    | addPage x hpg hc =>
      rw [hpg]; intro p hpm t ht
      rw [List.mem_append, List.mem_singleton] at hpm
      rcases hpm with hpm | rfl
      · exact hp p hpm t ht
      · simp at ht
    | setPage k hpg hc => rw [hpg]; exact hp
    | keep _ ha hs hw hpg hc => rw [hpg]; exact hp
    | item _ ha hs hw i hi hpg hc =>
      rw [hpg]; intro p hpm t ht
      rcases List.mem_or_eq_of_mem_set hpm with hpm | rfl
      · exact hp p hpm t ht
      · rw [List.mem_append, List.mem_singleton] at ht
        rcases ht with ht | ht
        · exact cur_page t ht
        · exact absurd ht.symm (hi t)
    | text _ ha hs t cell rect opt ht hqq hadd =>
      unfold St.addText at hadd
      split at hadd
      · exact absurd hadd (by simp)
      · next items x y hap =>
        have hpg : s1.pages = s.pages.set s.page items := by rw [← Option.some.inj hadd]
        rw [hpg]; intro p hpm t1 ht1
        rcases List.mem_or_eq_of_mem_set hpm with hpm | rfl
        · exact hp p hpm t1 ht1
        · obtain ⟨pre, c', t2, hc, hx, rfl, -, -⟩ := append_cases hap
          rw [List.mem_append, List.mem_singleton] at ht1
          rcases hc with ⟨hpre, -⟩ | ⟨hpre, rfl, -⟩
          · rcases ht1 with ht1 | ht1
            · exact cur_page t1 (by rw [hpre]; simp [ht1])
            · obtain rfl := Item.text.inj ht1
              exact hext _ _ _ (cur_page c' (by rw [hpre]; simp)) hx
          · rcases ht1 with ht1 | ht1
            · exact cur_page t1 (by rw [hpre]; exact ht1)
            · obtain rfl := Item.text.inj ht1
              exact hext _ _ _ (by rw [ht]; exact hnew _ _ _ _ hq) hx

end Verif.Content
