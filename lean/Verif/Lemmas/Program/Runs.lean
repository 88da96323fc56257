import Verif.Lemmas.Program.Text
import Verif.Spec.Runs
/- The arrays of codes on the pages of a program, and the text they stand for. -/
set_option maxRecDepth 10000
namespace Verif.Content

/-- The characters of an item with the number of the font. -/
def runes1 : Item → List (Nat × Nat)
  | .text t => t.text.map fun r => (t.font, r)
  | _ => []

def runes (items : List Item) : List (Nat × Nat) := items.flatMap runes1

theorem runes_snoc (a : List Item) (i : Item) : runes (a ++ [i]) = runes a ++ runes1 i := by simp [runes]

theorem append_runes {e : Env} {items items' : List Item} {cur : Cur} {cell : Bool} {rect : Option Units.Rect} {opt : CellOption} {text : List Nat}
    {x y : ℚ} (h : appendContentText e items (newText cur cell rect opt) text = some (items', x, y)) :
    runes items' = runes items ++ text.map fun r => (cur.font + 1, r) := by
  obtain ⟨pre, c', t, hc, hx, rfl, -, -⟩ := append_cases h
  obtain ⟨al, htext⟩ := extend_alike hx
  rw [runes_snoc]
  rcases hc with ⟨rfl, hs⟩ | ⟨rfl, rfl, -⟩
  · obtain ⟨-, -, -, f4, -⟩ := isSame_fields hs
    rw [runes_snoc]
    simp only [runes1, htext, ← al.font, f4, List.map_append, List.append_assoc]
    rfl
  · simp only [runes1, htext, ← al.font]
    rfl

/-- The items of a page after a call. -/
theorem step_runes {e : Env} {s s' : St} {c : Call} (h1 : step e s c = some s') (hp : s.page < s.pages.length) (n : Nat) :
    runes (s'.pages.getD n []) = runes (s.pages.getD n []) ++ (if s.page = n then (Drawing.written c).map fun r => (s.cur.font + 1, r) else []) := by
  have set_at : ∀ (items : List Item), s'.pages = s.pages.set s.page items → s'.pages.getD n [] = if s.page = n then items else s.pages.getD n [] := by
    intro items hpg
    rw [hpg, List.getD_eq_getElem?_getD]
    by_cases hn : s.page = n
    · subst hn; simp [hp]
    · rw [List.getElem?_set_ne hn, if_neg hn, ← List.getD_eq_getElem?_getD]
  cases step_did h1 with
  | addPage x hpg hc => rw [hpg, getD_append_nil]; simp [Drawing.written]
  | setPage k hpg hc => rw [hpg]; simp [Drawing.written]
  | keep _ ha hs hw hpg hc => rw [hpg, hw]; simp
  | item _ ha hs hw i hi hpg hc =>
    rw [set_at _ hpg, hw]
    have : runes1 i = [] := by cases i <;> first | rfl | exact absurd rfl (hi _)
    split
    · next hn => rw [runes_snoc, this, hn]; simp
    · simp
  | text _ ha hs t cell rect opt ht hq hadd =>
    unfold St.addText at hadd
    split at hadd
    · exact absurd hadd (by simp)
    · next items x y hap =>
      have hpg : s'.pages = s.pages.set s.page items := by rw [← Option.some.inj hadd]
      rw [ht] at hap
      rw [set_at _ hpg]
      split
      · next hn => rw [append_runes hap, hn]
      · simp

/-! ### Justification -/

def JustOK (t : TextItem) : Prop := has t.opt.align justify = true → t.rectangle = none ∨ t.isCell = false

theorem JustOK.none {t : TextItem} (h : JustOK t) : justOf t = none := by
  unfold justOf
  split
  · next hj =>
    simp only [Bool.and_eq_true, Option.isSome_iff_ne_none] at hj
    rcases h hj.1.2 with h | h
    · exact absurd h hj.2
    · rw [h] at hj; simp at hj
  · rfl

theorem extend_opt {e : Env} {c t : TextItem} {text : List Nat} (h : extend e c text = some t) :
    t.opt = c.opt ∧ t.rectangle = c.rectangle ∧ t.isCell = c.isCell := by
  unfold extend at h
  obtain ⟨r, hr, rfl⟩ := Option.map_eq_some_iff.1 h
  exact ⟨rfl, rfl, rfl⟩

/-- A call that justifies nothing. -/
def PlainCell : Call → Prop
  | .cellWithOption (some _) _ opt _ => has opt.align justify = false
  | _ => True

theorem step_just {e : Env} {s s' : St} {c : Call} (h1 : step e s c = some s') (hc : PlainCell c)
    (h : ∀ p ∈ s.pages, ∀ t, Item.text t ∈ p → JustOK t) : ∀ p ∈ s'.pages, ∀ t, Item.text t ∈ p → JustOK t := by
  have cur_page : ∀ t, Item.text t ∈ s.pages.getD s.page [] → JustOK t := by
    intro t ht
    rw [List.getD_eq_getElem?_getD] at ht
    cases hx : s.pages[s.page]? with
    | none => simp [hx] at ht
    | some p => rw [hx] at ht; exact h p (List.mem_of_getElem? hx) t ht
  have setp : ∀ items, s'.pages = s.pages.set s.page items → (∀ t, Item.text t ∈ items → JustOK t) → ∀ p ∈ s'.pages, ∀ t, Item.text t ∈ p → JustOK t := by
    intro items hpg hit p hp t ht
    rw [hpg] at hp
    rcases List.mem_or_eq_of_mem_set hp with hp | rfl
    · exact h p hp t ht
    · exact hit t ht
  cases step_did h1 with
  | addPage x hpg _ =>
    rw [hpg]
    intro p hp t ht
    rw [List.mem_append, List.mem_singleton] at hp
    rcases hp with hp | rfl
    · exact h p hp t ht
    · simp at ht
  | setPage k hpg _ => rw [hpg]; exact h
  | keep _ ha hs hw hpg _ => rw [hpg]; exact h
  | item _ ha hs hw i hi hpg _ =>
    refine setp _ hpg fun t ht => ?_
    rw [List.mem_append, List.mem_singleton] at ht
    rcases ht with ht | ht
    · exact cur_page t ht
    · exact absurd ht.symm (hi t)
  | text _ ha hs t cell rect opt ht hq hadd =>
    unfold St.addText at hadd
    split at hadd
    · exact absurd hadd (by simp)
    · next items x y hap =>
      refine setp items (by rw [← Option.some.inj hadd]) ?_
      obtain ⟨pre, c', t', hcs, hx, rfl, -, -⟩ := append_cases hap
      obtain ⟨o1, o2, o3⟩ := extend_opt hx
      intro u hu
      rw [List.mem_append, List.mem_singleton] at hu
      rcases hcs with ⟨hpre, -⟩ | ⟨hpre, rfl, -⟩
      · rcases hu with hu | hu
        · exact cur_page u (by rw [hpre]; simp [hu])
        · simp only [Item.text.injEq] at hu
          subst hu
          have := cur_page c' (by rw [hpre]; simp)
          unfold JustOK at this ⊢
          rwa [o1, o2, o3]
      · rcases hu with hu | hu
        · exact cur_page u (by rw [hpre]; exact hu)
        · simp only [Item.text.injEq] at hu
          subst hu
          unfold JustOK
          rw [o1, o2, o3]
          clear hx hap hadd o1 o2 o3 hpre h1
          cases c with
          | text _ =>
            simp only [Drawing.asked, Option.some.injEq, Prod.mk.injEq] at hq
            obtain ⟨rfl, -⟩ := hq
            intro _; exact .inr rfl
          | cell r _ =>
            simp only [Drawing.asked, Option.some.injEq, Prod.mk.injEq] at hq
            obtain ⟨rfl, -⟩ := hq
            intro hj; exact absurd (show has (8 ||| 4) justify = true from hj) (by decide)
          | cellWithOption r _ o tr =>
            simp only [Drawing.asked, Option.some.injEq, Prod.mk.injEq] at hq
            obtain ⟨rfl, -⟩ := hq
            intro hj
            cases r with
            | none => exact .inl rfl
            | some _ =>
              simp only [PlainCell] at hc
              have : has o.align justify = true := hj
              rw [hc] at this; cases this
          | _ => simp [Drawing.asked] at hq

end Verif.Content

namespace Verif.Program
open Doc (NoUL Base Reachable Grow)

/-! ### Runs shown by the operators of a page -/

theorem runs_noTJ : ∀ (l : List Paint.Op), (∀ o ∈ l, ∀ it, o ≠ .TJ it) → ∀ (f : Option Nat) (st : List (Option Nat)) (l' : List Paint.Op),
    ∃ f' st', Viewer.runs f st (l ++ l') = Viewer.runs f' st' l'
  | [], _, f, st, l' => ⟨f, st, rfl⟩
  | o :: l, h, f, st, l' => by
    have ih := fun f st => runs_noTJ l (fun x hx => h x (by simp [hx])) f st l'
    have h0 := h o (by simp)
    cases o <;> first | exact absurd rfl (h0 _) | exact ih _ _

theorem runs_skip : ∀ (l : List Paint.Op), (∀ o ∈ l, ∃ c, o = .fillColour c) → ∀ (f : Option Nat) (st : List (Option Nat)) (l' : List Paint.Op),
    Viewer.runs f st (l ++ l') = Viewer.runs f st l'
  | [], _, f, st, l' => rfl
  | o :: l, h, f, st, l' => by
    obtain ⟨c, rfl⟩ := h o (by simp)
    exact runs_skip l (fun x hx => h x (by simp [hx])) f st l'

/-- The array of an item with the font number. -/
def run1 (e : Content.Env) : Content.Item → List (Option Nat × List TextShow.Item)
  | .text t => [(some t.font, Content.tjOf e t)]
  | _ => []

theorem runs_item (e : Content.Env) (i : Content.Item) (f : Option Nat) (st : List (Option Nat)) (l' : List Paint.Op) :
    ∃ f' st', Viewer.runs f st (Content.ops e i ++ l') = run1 e i ++ Viewer.runs f' st' l' := by
  by_cases hi : ∀ t, i ≠ .text t
  · obtain ⟨f', st', h⟩ := runs_noTJ _ (Content.noTJ_item e i hi) f st l'
    refine ⟨f', st', ?_⟩
    rw [h]
    cases i <;> first | rfl | exact absurd rfl (hi _)
  · push Not at hi
    obtain ⟨t, rfl⟩ := hi
    simp only [Content.ops, Content.textOps, List.append_assoc]
    have hcol : ∀ o ∈ Content.colourOps t, ∃ c, o = .fillColour c := by
      intro o ho
      unfold Content.colourOps at ho
      split at ho
      · split at ho <;> simp at ho
        exact ⟨_, ho⟩
      · simp at ho
    have htail : ∀ o ∈ (if Content.has t.fontStyle Content.underline then Content.underlineOps e t else []) ++ (Content.borderOps t ++
        (if t.opt.ext ≠ [] then [Paint.Op.Q] else [])), ∀ it, o ≠ .TJ it := by
      intro o ho it
      rintro rfl
      simp only [List.mem_append] at ho
      rcases ho with ho | ho | ho
      · split at ho <;> simp [Content.underlineOps] at ho
      · have hl : ∀ (b : Bool) (x1 y1 x2 y2 : ℚ), Paint.Op.TJ it ∉ (if b then Content.borderLine x1 y1 x2 y2 else []) := by
          intro b x1 y1 x2 y2 h
          cases b <;> simp [Content.borderLine] at h
        simp only [Content.borderOps, List.mem_append] at ho
        rcases ho with ((ho | ho) | ho) | ho <;> exact hl _ _ _ _ _ ho
      · split at ho <;> simp at ho
    have hpre : ∀ o ∈ (if t.opt.ext ≠ [] then [Paint.Op.q] else []) ++ t.opt.ext.map Paint.Op.gs, ∀ it, o ≠ .TJ it := by
      intro o ho it
      rintro rfl
      simp only [List.mem_append, List.mem_map] at ho
      rcases ho with ho | ⟨_, _, ho⟩
      · split at ho <;> simp at ho
      · simp at ho
    obtain ⟨f1, st1, h1⟩ := runs_noTJ _ hpre f st ([.BT, .Td (Content.calX t) (Content.calY e t), .Tf t.font t.fontSize, .Tc t.charSpacing] ++
      (Content.colourOps t ++ ([.TJ (Content.tjOf e t), .ET] ++ ((if Content.has t.fontStyle Content.underline then Content.underlineOps e t else []) ++
      (Content.borderOps t ++ ((if t.opt.ext ≠ [] then [Paint.Op.Q] else []) ++ l'))))))
    obtain ⟨f2, st2, h2⟩ := runs_noTJ _ htail (some t.font) st1 l'
    refine ⟨f2, st2, ?_⟩
    rw [List.append_assoc] at h1
    rw [h1]
    simp only [List.cons_append, List.nil_append, Viewer.runs]
    rw [runs_skip _ hcol]
    simp only [Viewer.runs]
    simp only [List.append_assoc] at h2
    rw [h2]; rfl

theorem runs_page (e : Content.Env) : ∀ (items : List Content.Item) (f : Option Nat) (st : List (Option Nat)),
    Viewer.runs f st (Content.pageOps e items) = items.flatMap (run1 e)
  | [], f, st => by cases st <;> rfl
  | i :: items, f, st => by
    simp only [Content.pageOps, List.flatMap_cons]
    obtain ⟨f', st', h⟩ := runs_item e i f st (items.flatMap (Content.ops e))
    rw [h, show items.flatMap (Content.ops e) = Content.pageOps e items from rfl, runs_page e items f' st']

theorem runs_near {a b : List Paint.Op} (h : List.Forall₂ ContentReader.NearOp a b) : ∀ (f : Option Nat) (st : List (Option Nat)),
    Viewer.runs f st a = Viewer.runs f st b := by
  induction h with
  | nil => intro f st; rfl
  | @cons x y a b hxy _ ih =>
    intro f st
    by_cases he : x = y
    · subst he
      cases x <;> simp only [Viewer.runs, ih]
    · cases x <;> cases y <;> simp only [ContentReader.NearOp] at hxy <;>
        first | exact absurd hxy he | exact absurd rfl he | (obtain ⟨rfl, _⟩ := hxy; simp only [Viewer.runs, ih]; done) | (simp only [Viewer.runs, ih]; done)

/-! ### From calls to characters -/

theorem step_runes {e : Content.Env} {s s' : St} {c : Call} (hs : step e s c = some s') (hp : s.content.page < s.content.pages.length) (k : Nat) :
    Content.runes (s'.content.pages.getD k []) = Content.runes (s.content.pages.getD k []) ++
      (if s.content.page = k then (written c).map fun r => (s.content.cur.font + 1, r) else []) := by
  have one : ∀ (n : Nat) (o : Option Doc.Op) (_ : docOp n c = some o) (d : Doc.Doc) (en : Doc.Entry) (x : Content.Call)
      (_ : contentCall d en c = some x) (_ : Content.step e s.content x = some s'.content),
      Content.runes (s'.content.pages.getD k []) = Content.runes (s.content.pages.getD k []) ++
      (if s.content.page = k then (written c).map fun r => (s.content.cur.font + 1, r) else []) := by
    intro n o h1 d en x h2 h3
    rw [Content.step_runes h3 hp k, written_call h1 h2]
  cases step_made hs with
  | pen a1 x a2 a3 a4 a5 => exact one _ _ a1 _ _ x a2 a4
  | err op a1 a2 a3 a5 => rw [a3, no_text a1 a2]; simp
  | quiet op a1 a2 a3 a4 a5 => rw [a4, quiet_text a3]; simp
  | both op a1 a2 x a3 a4 a5 => exact one _ _ a1 _ _ x a3 a4

theorem steps_runes {e : Content.Env} (k : Nat) : ∀ (prog : List Call) (fam : Nat) (s s' : St), steps e s prog = some s' →
    s.content.page + 1 = s.content.pages.length →
    Content.runes (s'.content.pages.getD k []) =
      Content.runes (s.content.pages.getD k []) ++ (asked e k fam s.content.page s prog).map fun a => (a.number, a.char)
  | [], fam, s, s', h, _ => by
    obtain rfl : s = s' := by simpa [steps] using h
    simp [asked]
  | c :: prog, fam, s, s', h, hp => by
    obtain ⟨s1, h1, h2⟩ := steps_cons h
    obtain ⟨p1, p2⟩ := step_page h1 hp
    rw [steps_runes k prog (familyAfter s fam c) s1 s' h2 p1, step_runes h1 (by omega) k]
    simp only [asked, h1, p2, List.map_append, List.append_assoc]
    congr 2
    split
    · rw [List.map_map]; rfl
    · rfl

/-- A call that justifies nothing. -/
def PlainCell : Call → Prop
  | .cellWithOption (some _) _ opt _ => Content.has opt.align Content.justify = false
  | _ => True

theorem step_just {e : Content.Env} {s s' : St} {c : Call} (hs : step e s c = some s') (hc : PlainCell c)
    (h : ∀ p ∈ s.content.pages, ∀ t, Content.Item.text t ∈ p → Content.JustOK t) :
    ∀ p ∈ s'.content.pages, ∀ t, Content.Item.text t ∈ p → Content.JustOK t := by
  have one : ∀ (n : Nat) (o : Option Doc.Op) (_ : docOp n c = some o) (d : Doc.Doc) (en : Doc.Entry) (x : Content.Call)
      (_ : contentCall d en c = some x) (_ : Content.step e s.content x = some s'.content),
      ∀ p ∈ s'.content.pages, ∀ t, Content.Item.text t ∈ p → Content.JustOK t := by
    intro n o h1 d en x h2 h3
    refine Content.step_just h3 ?_ h
    cases c with
    | plain k =>
      simp only [contentCall, Option.some.injEq] at h2
      subst h2
      cases k <;> first | trivial | simp [docOp, plainCall] at h1
    | cellWithOption r t opt tr =>
      simp only [contentCall, Option.some.injEq] at h2
      subst h2
      cases r with
      | none => trivial
      | some _ => exact hc
    | setColourSpace nm => simp only [contentCall, Option.map_eq_some_iff] at h2; obtain ⟨_, _, rfl⟩ := h2; trivial
    | image a b => simp only [contentCall, Option.map_eq_some_iff] at h2; obtain ⟨_, _, rfl⟩ := h2; trivial
    | imageOpt a b c d => simp only [contentCall, Option.map_eq_some_iff] at h2; obtain ⟨_, _, rfl⟩ := h2; trivial
    | object o => simp [contentCall] at h2
    | _ => simp only [contentCall, Option.some.injEq] at h2; subst h2; trivial
  cases step_made hs with
  | pen a1 x a2 a3 a4 a5 => exact one _ _ a1 _ _ x a2 a4
  | err op a1 a2 a3 a5 => rw [a3]; exact h
  | quiet op a1 a2 a3 a4 a5 => rw [a4]; exact h
  | both op a1 a2 x a3 a4 a5 => exact one _ _ a1 _ _ x a3 a4

theorem steps_just {e : Content.Env} : ∀ (prog : List Call) (s s' : St), steps e s prog = some s' → (∀ c ∈ prog, PlainCell c) →
    (∀ p ∈ s.content.pages, ∀ t, Content.Item.text t ∈ p → Content.JustOK t) → ∀ p ∈ s'.content.pages, ∀ t, Content.Item.text t ∈ p → Content.JustOK t
  | [], s, s', h, _, hj => by
    obtain rfl : s = s' := by simpa [steps] using h
    exact hj
  | c :: prog, s, s', h, hc, hj => by
    obtain ⟨s1, h1, h2⟩ := steps_cons h
    exact steps_just prog s1 s' h2 (fun x hx => hc x (by simp [hx])) (step_just h1 (hc c (by simp)) hj)

end Verif.Program
