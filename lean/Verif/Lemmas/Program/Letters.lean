import Verif.Lemmas.Program.Runs
import Verif.Spec.TextLook
/- The letters on the pages of a program. -/
set_option maxRecDepth 10000
namespace Verif.Content

/-- Where the text of an item starts; for text without a rectangle it does not depend on the text. -/
def startOf (e : Env) (t : TextItem) : ℚ × ℚ := match t.rectangle with
  | none => (t.x, calY e { t with cellHeight := typo (e.fonts t.font).typoAscender (e.fonts t.font) t.fontSize - typo (e.fonts t.font).typoDescender (e.fonts t.font) t.fontSize })
  | some _ => (calX t, calY e t)

/-- A character on a page: style and, for the first of an item, place. -/
structure Sign where
  style : Drawing.Style
  char : Nat
  start : Option (ℚ × ℚ)

def signs (st : Drawing.Style) (p : Option (ℚ × ℚ)) : List Nat → List Sign
  | [] => []
  | r :: rest => ⟨st, r, p⟩ :: signs st none rest

theorem signs_append (st : Drawing.Style) : ∀ (p : Option (ℚ × ℚ)) (a b : List Nat), ∃ p', signs st p (a ++ b) = signs st p a ++ signs st p' b
  | p, [], b => ⟨p, rfl⟩
  | p, r :: a, b => by
    obtain ⟨p', h⟩ := signs_append st none a b
    exact ⟨p', by simp [signs, h]⟩

theorem signs_map (st : Drawing.Style) : ∀ (p : Option (ℚ × ℚ)) (a : List Nat), (signs st p a).map (fun s => (s.style, s.char)) = a.map fun r => (st, r)
  | _, [] => rfl
  | p, r :: a => by simp [signs, signs_map st none a]

def signs1 (e : Env) : Item → List Sign
  | .text t => signs (itemStyle t) (some (startOf e t)) t.text
  | _ => []

def signsOf (e : Env) (items : List Item) : List Sign := items.flatMap (signs1 e)

theorem signsOf_snoc (e : Env) (a : List Item) (i : Item) : signsOf e (a ++ [i]) = signsOf e a ++ signs1 e i := by simp [signsOf]

theorem startOf_extend {e : Env} {c t : TextItem} {text : List Nat} (h : extend e c text = some t) (hr : c.rectangle = none) :
    startOf e t = startOf e c := by
  unfold extend at h
  obtain ⟨r, _, rfl⟩ := Option.map_eq_some_iff.1 h
  simp only [startOf, hr, calY]

theorem append_signs {e : Env} {items items' : List Item} {cur : Cur} {cell : Bool} {rect : Option Units.Rect} {opt : CellOption} {text : List Nat}
    {x y : ℚ} (h : appendContentText e items (newText cur cell rect opt) text = some (items', x, y)) :
    ∃ p, signsOf e items' = signsOf e items ++ signs (curStyle cur) p text := by
  obtain ⟨pre, c', t, hc, hx, rfl, -, -⟩ := append_cases h
  obtain ⟨al, htext⟩ := extend_alike hx
  rw [signsOf_snoc]
  rcases hc with ⟨rfl, hs⟩ | ⟨rfl, rfl, -⟩
  · obtain ⟨f1, f2, -, f4, f5, -, f7, -, -⟩ := isSame_fields hs
    have e1 : itemStyle t = curStyle cur := by
      unfold itemStyle curStyle
      rw [← al.font, ← al.size, ← al.spacing, ← al.colour, f2, f4, f5, f7]; rfl
    have e2 : itemStyle c' = curStyle cur := by
      unfold itemStyle curStyle; rw [f2, f4, f5, f7]; rfl
    obtain ⟨p, hp⟩ := signs_append (curStyle cur) (some (startOf e c')) c'.text text
    refine ⟨p, ?_⟩
    rw [signsOf_snoc]
    simp only [signs1, htext, startOf_extend hx f1, e1, e2, hp, List.append_assoc]
  · have e1 : itemStyle t = curStyle cur := by
      unfold itemStyle curStyle
      rw [← al.font, ← al.size, ← al.spacing, ← al.colour]; rfl
    refine ⟨some (startOf e t), ?_⟩
    simp only [signs1, htext, e1]
    rfl

/-- The characters of a page after a call. -/
theorem step_signs {e : Env} {s s' : St} {c : Call} (h1 : step e s c = some s') (hp : s.page < s.pages.length) (n : Nat) :
    ∃ new, signsOf e (s'.pages.getD n []) = signsOf e (s.pages.getD n []) ++ new ∧
      new.map (fun x => (x.style, x.char)) = if s.page = n then (Drawing.written c).map fun r => (curStyle s.cur, r) else [] := by
  have set_at : ∀ (items : List Item), s'.pages = s.pages.set s.page items → s'.pages.getD n [] = if s.page = n then items else s.pages.getD n [] := by
    intro items hpg
    rw [hpg, List.getD_eq_getElem?_getD]
    by_cases hn : s.page = n
    · subst hn; simp [hp]
    · rw [List.getElem?_set_ne hn, if_neg hn, ← List.getD_eq_getElem?_getD]
  cases step_did h1 with
  | addPage x hpg hc => exact ⟨[], by rw [hpg, getD_append_nil]; simp, by simp [Drawing.written]⟩
  | setPage k hpg hc => exact ⟨[], by rw [hpg]; simp, by simp [Drawing.written]⟩
  | keep _ ha hs hw hpg hc => exact ⟨[], by rw [hpg]; simp, by rw [hw]; simp⟩
  | item _ ha hs hw i hi hpg hc =>
    refine ⟨[], ?_, by rw [hw]; simp⟩
    rw [set_at _ hpg]
    have : signs1 e i = [] := by cases i <;> first | rfl | exact absurd rfl (hi _)
    split
    · next hn => rw [signsOf_snoc, this, hn]
    · simp
  | text _ ha hs t cell rect opt ht hq hadd =>
    unfold St.addText at hadd
    split at hadd
    · exact absurd hadd (by simp)
    · next items x y hap =>
      have hpg : s'.pages = s.pages.set s.page items := by rw [← Option.some.inj hadd]
      rw [ht] at hap
      rw [set_at _ hpg]
      split
      · next hn =>
        obtain ⟨p, h⟩ := append_signs hap
        exact ⟨_, by rw [← hn]; exact h, signs_map _ _ _⟩
      · exact ⟨[], by simp, rfl⟩

end Verif.Content
