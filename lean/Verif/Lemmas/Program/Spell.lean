import Verif.Lemmas.Program.Letters
/- What the reader of Spec/TextLook.lean reads on the pages of a program. -/
set_option maxRecDepth 10000
namespace Verif.Program
open Viewer Paint ContentReader

/-! ### Rounding -/

def NearLook (a b : Look) : Prop :=
  (match a.font, b.font with | none, none => True | some x, some y => x.1 = y.1 ∧ Near (1 / 2000) x.2 y.2 | _, _ => False) ∧
  Near (1 / 2000) a.spacing b.spacing ∧ NearColour a.fill b.fill

def NearPlace : Option (ℚ × ℚ) → Option (ℚ × ℚ) → Prop
  | none, none => True
  | some p, some q => NearPt p q
  | _, _ => False

def NearPen : Pen → Pen → Prop
  | .away, .away => True
  | .begun, .begun => True
  | .put x y, .put x' y' => NearPt (x, y) (x', y')
  | _, _ => False

structure NearLetter (a b : Letter) : Prop where
  code : a.code = b.code
  look : NearLook a.look b.look
  start : NearPlace a.start b.start

theorem NearPen.place {p q : Pen} (h : NearPen p q) : NearPlace p.place q.place := by
  cases p <;> cases q <;> first | exact h | exact h.elim | trivial

theorem near_spell {l l' : Look} (hl : NearLook l l') : ∀ (items : List TextShow.Item) (p p' : Option (ℚ × ℚ)), NearPlace p p' →
    List.Forall₂ NearLetter (spell l p items) (spell l' p' items)
  | [], _, _, _ => .nil
  | .code c :: rest, p, p', h => .cons ⟨rfl, hl, h⟩ (near_spell hl rest none none trivial)
  | .adjust _ :: rest, p, p', h => near_spell hl rest none none trivial

theorem near_letters {a b : List Op} (h : List.Forall₂ NearOp a b) : ∀ {l l' : Look} {st st' : List Look} {p p' : Pen}, NearLook l l' →
    List.Forall₂ NearLook st st' → NearPen p p' → List.Forall₂ NearLetter (letters l st p a) (letters l' st' p' b) := by
  induction h with
  | nil => intro l l' st st' p p' _ _ _; cases p <;> cases p' <;> exact .nil
  | @cons x y a b hxy _ ih =>
    intro l l' st st' p p' hl hst hp
    have hhead : NearLook (st.head?.getD l) (st'.head?.getD l') ∧ List.Forall₂ NearLook st.tail st'.tail := by
      cases hst with
      | nil => exact ⟨hl, .nil⟩
      | cons h1 h2 => exact ⟨h1, h2⟩
    have pens : ∀ (x x' y y' : ℚ), NearPt (x, y) (x', y') →
        List.Forall₂ NearLetter (letters l st p (.Td x y :: a)) (letters l' st' p' (.Td x' y' :: b)) := by
      intro x x' y y' hn
      cases p <;> cases p' <;> simp only [letters] <;> first | exact ih hl hst trivial | exact ih hl hst hn | exact hp.elim
    by_cases he : x = y
    · subst he
      cases x with
      | q => exact ih hl (.cons hl hst) hp
      | Q => exact ih hhead.1 hhead.2 hp
      | Tf n s => exact ih ⟨⟨rfl, hxy.2⟩, hl.2.1, hl.2.2⟩ hst hp
      | Tc v => exact ih ⟨hl.1, hxy, hl.2.2⟩ hst hp
      | fillColour c => exact ih ⟨hl.1, hl.2.1, hxy⟩ hst hp
      | BT => exact ih hl hst trivial
      | ET => exact ih hl hst trivial
      | Td x y => exact pens _ _ _ _ hxy
      | TJ items => exact List.rel_append (near_spell hl items _ _ hp.place) (ih hl hst trivial)
      | _ => exact ih hl hst hp
    · cases x <;> cases y <;> simp only [NearOp] at hxy <;>
        first
        | exact absurd hxy he
        | exact absurd rfl he
        | exact pens _ _ _ _ hxy
        | exact ih ⟨⟨hxy.1, hxy.2⟩, hl.2.1, hl.2.2⟩ hst hp
        | exact ih hl hst hp
        | exact ih ⟨hl.1, hxy, hl.2.2⟩ hst hp
        | exact ih ⟨hl.1, hl.2.1, hxy⟩ hst hp

/-! ### Letters and codes -/

/-- The font number and code of a letter. -/
def numbered (x : Letter) : Option (Nat × Nat) := x.look.font.map fun f => (f.1, x.code)

theorem spell_codes (l : Look) : ∀ (items : List TextShow.Item) (p : Option (ℚ × ℚ)),
    (spell l p items).filterMap numbered = (match l.font.map Prod.fst with | some n => (items.filterMap codeOf).map fun g => (n, g) | none => [])
  | [], _ => by cases l.font <;> rfl
  | .code c :: rest, p => by
    have := spell_codes l rest none
    cases hf : l.font <;> simp only [hf, Option.map_none, Option.map_some, spell, List.filterMap_cons, numbered, codeOf] at this ⊢
    · exact this
    · simpa using this
  | .adjust _ :: rest, p => by
    have := spell_codes l rest none
    cases hf : l.font <;> simp only [hf, Option.map_none, Option.map_some, spell, List.filterMap_cons, codeOf] at this ⊢ <;> exact this

theorem letters_shown : ∀ (ops : List Op) (l : Look) (st : List Look) (p : Pen),
    (letters l st p ops).filterMap numbered = Viewer.shown (l.font.map Prod.fst) (st.map fun x => x.font.map Prod.fst) ops
  | [], l, st, p => by cases p <;> rfl
  | o :: ops, l, st, p => by
    have ih := fun l st p => letters_shown ops l st p
    cases o with
    | TJ it =>
      simp only [letters, Viewer.shown, List.filterMap_append, ih, spell_codes]
      generalize Option.map Prod.fst l.font = z
      cases z <;> rfl
    | Td x y => cases p <;> simp only [letters, Viewer.shown, ih]
    | Q => cases st <;> simp only [letters, Viewer.shown, ih] <;> rfl
    | _ => simp only [letters, Viewer.shown, ih, List.map_cons, Option.map_some]

/-! ### The letters of a page -/

theorem letters_noTJ : ∀ (ops : List Op), (∀ o ∈ ops, ∀ it, o ≠ .TJ it) → ∀ (l : Look) (st : List Look) (p : Pen) (rest : List Op),
    ∃ l' st' p', letters l st p (ops ++ rest) = letters l' st' p' rest
  | [], _, l, st, p, rest => ⟨l, st, p, rfl⟩
  | o :: ops, h, l, st, p, rest => by
    have ih := fun l st p => letters_noTJ ops (fun x hx => h x (by simp [hx])) l st p rest
    have h0 := h o (by simp)
    cases o with
    | TJ it => exact absurd rfl (h0 it)
    | Td x y => cases p <;> exact ih _ _ _
    | _ => exact ih _ _ _

/-- The first element of an array is a code. -/
theorem spell_loop (f : TextRun.RunFont) (j : TextRun.Just) (l : Look) : ∀ (t : List Nat) (i : Nat) (left : Nat × Nat) (p : Option (ℚ × ℚ)),
    (∀ r ∈ t, (f.map.val r).isSome) → (i ≠ 0 → p = none) →
    List.Forall₂ (fun (x : Letter) (y : Content.Sign) => f.map.val y.char = some x.code ∧ x.look = l ∧ x.start = y.start)
      (spell l p ((TextRun.tjLoop f j left (TextRun.withIndex i t)).map Content.tjItem)) (Content.signs ⟨0, 0, 0, none⟩ p t)
  | [], _, _, _, _, _ => .nil
  | r :: t, i, left, p, h, hp => by
    obtain ⟨g, hg⟩ := Option.isSome_iff_exists.1 (h r (by simp))
    have ih := spell_loop f j l t (i + TextRun.utf8Len r) (r, g) none (fun x hx => h x (by simp [hx])) (fun _ => rfl)
    have hstep : ∀ (adj : List TextRun.TJ), (∀ a ∈ adj, ∃ n, a = .adj n) → ∀ (items : List TextShow.Item),
        spell l none (adj.map Content.tjItem ++ items) = spell l none items := by
      intro adj
      induction adj with
      | nil => intro _ items; rfl
      | cons a adj ih2 =>
        intro ha items
        obtain ⟨n, rfl⟩ := ha a (by simp)
        exact ih2 (fun x hx => ha x (by simp [hx])) items
    simp only [TextRun.withIndex, TextRun.tjLoop, hg, Content.signs]
    have hk : ∀ items, spell l p (((if TextRun.kernBefore f i r g left ≠ 0 then [TextRun.TJ.adj (-TextRun.kernBefore f i r g left)] else []).map Content.tjItem) ++ Content.tjItem (.glyph g) :: items)
        = ⟨g, l, p⟩ :: spell l none items := by
      intro items
      by_cases hi : i = 0
      · subst hi
        simp [TextRun.kernBefore, spell, Content.tjItem]
      · rw [hp hi]
        split <;> simp [spell, Content.tjItem]
    rw [show ∀ l1 l3 l4 : List TextRun.TJ, List.map Content.tjItem (l1 ++ [TextRun.TJ.glyph g] ++ l3 ++ l4) =
      l1.map Content.tjItem ++ Content.tjItem (.glyph g) :: (l3.map Content.tjItem ++ l4.map Content.tjItem) by simp, hk, hstep]
    · exact .cons ⟨hg, rfl, rfl⟩ ih
    · intro a ha
      cases j with
      | none => simp at ha
      | some x =>
        obtain ⟨adj, first, last⟩ := x
        dsimp only at ha
        split at ha
        · simp at ha; exact ⟨_, ha⟩
        · simp at ha

/-- A letter shows a character of a page. -/
structure Shows (e : Content.Env) (x : Letter) (y : Content.Sign) : Prop where
  code : (e.fonts (y.style.font + 1)).run.map.val y.char = some x.code
  font : x.look.font = some (y.style.font + 1, y.style.size)
  spacing : x.look.spacing = y.style.spacing
  colour : ∀ c, y.style.colour = some c → x.look.fill = c
  start : x.start = y.start

/-- What is known of an item. -/
structure Fine (e : Content.Env) (t : Content.TextItem) : Prop where
  font : 0 < t.font
  glyphs : ∀ r ∈ t.text, ((e.fonts t.font).run.map.val r).isSome
  start : Content.startOf e t = (Content.calX t, Content.calY e t)
  colour : t.inColour = t.colour.isSome

theorem signs_other (st st' : Drawing.Style) : ∀ (p : Option (ℚ × ℚ)) (t : List Nat),
    Content.signs st p t = (Content.signs st' p t).map fun y => { y with style := st }
  | _, [] => rfl
  | p, r :: t => by simp [Content.signs, signs_other st st' none t]

theorem signs_style (st : Drawing.Style) : ∀ (p : Option (ℚ × ℚ)) (t : List Nat), ∀ y ∈ Content.signs st p t, y.style = st
  | _, [], y, h => by simp [Content.signs] at h
  | p, r :: t, y, h => by
    simp only [Content.signs, List.mem_cons] at h
    rcases h with rfl | h
    · rfl
    · exact signs_style st none t y h

theorem colourOps_of {t : Content.TextItem} (h : t.inColour = t.colour.isSome) :
    Content.colourOps t = match t.colour with | some c => [.fillColour c.colour] | none => [] := by
  unfold Content.colourOps
  cases hc : t.colour <;> simp [h, hc]

/-- The letters of an item. -/
theorem letters_item (e : Content.Env) (i : Content.Item) (hi : ∀ t, i = .text t → Fine e t) (l : Look) (st : List Look) (p : Pen) (rest : List Op) :
    ∃ new l' st' p', letters l st p (Content.ops e i ++ rest) = new ++ letters l' st' p' rest ∧ List.Forall₂ (Shows e) new (Content.signs1 e i) := by
  by_cases ht : ∀ t, i ≠ .text t
  · obtain ⟨l', st', p', h⟩ := letters_noTJ _ (Content.noTJ_item e i ht) l st p rest
    refine ⟨[], l', st', p', by simpa using h, ?_⟩
    cases i <;> first | exact .nil | exact absurd rfl (ht _)
  · push Not at ht
    obtain ⟨t, rfl⟩ := ht
    have fine := hi t rfl
    simp only [Content.ops, Content.textOps, List.append_assoc]
    have htail : ∀ o ∈ (if Content.has t.fontStyle Content.underline then Content.underlineOps e t else []) ++ (Content.borderOps t ++
        (if t.opt.ext ≠ [] then [Paint.Op.Q] else [])), ∀ it, o ≠ .TJ it := by
      intro o ho it
      rintro rfl
      simp only [List.mem_append] at ho
      rcases ho with ho | ho | ho
      · split at ho <;> simp [Content.underlineOps] at ho
      · have hl : ∀ (b : Bool) (x1 y1 x2 y2 : ℚ), Paint.Op.TJ it ∉ (if b then Content.borderLine x1 y1 x2 y2 else []) := by
          intro b x1 y1 x2 y2 h
          cases b <;> simp [Content.borderLine] at h
        simp only [Content.borderOps, List.mem_append] at ho
        rcases ho with ((ho | ho) | ho) | ho <;> exact hl _ _ _ _ _ ho
      · split at ho <;> simp at ho
    have hpre : ∀ o ∈ (if t.opt.ext ≠ [] then [Paint.Op.q] else []) ++ t.opt.ext.map Paint.Op.gs, ∀ it, o ≠ .TJ it := by
      intro o ho it
      rintro rfl
      simp only [List.mem_append, List.mem_map] at ho
      rcases ho with ho | ⟨_, _, ho⟩
      · split at ho <;> simp at ho
      · simp at ho
    obtain ⟨l1, st1, p1, h1⟩ := letters_noTJ _ hpre l st p ([.BT, .Td (Content.calX t) (Content.calY e t), .Tf t.font t.fontSize, .Tc t.charSpacing] ++
      (Content.colourOps t ++ ([.TJ (Content.tjOf e t), .ET] ++ ((if Content.has t.fontStyle Content.underline then Content.underlineOps e t else []) ++
      (Content.borderOps t ++ ((if t.opt.ext ≠ [] then [Paint.Op.Q] else []) ++ rest))))))
    rw [List.append_assoc] at h1
    rw [h1]
    have key : ∃ fill, (∀ c, (t.colour.map (·.colour)) = some c → fill = c) ∧ ∀ more, letters l1 st1 p1 ([.BT, .Td (Content.calX t) (Content.calY e t), .Tf t.font t.fontSize, .Tc t.charSpacing] ++
        (Content.colourOps t ++ ([.TJ (Content.tjOf e t), .ET] ++ more))) =
        spell ⟨some (t.font, t.fontSize), t.charSpacing, fill⟩ (some (Content.calX t, Content.calY e t)) (Content.tjOf e t) ++
          letters ⟨some (t.font, t.fontSize), t.charSpacing, fill⟩ st1 .away more := by
      rw [colourOps_of fine.colour]
      cases hc : t.colour with
      | none => exact ⟨l1.fill, by simp, fun more => rfl⟩
      | some c => exact ⟨c.colour, by simp, fun more => rfl⟩
    obtain ⟨fill, k1, k2⟩ := key
    obtain ⟨l2, st2, p2, h2⟩ := letters_noTJ _ htail ⟨some (t.font, t.fontSize), t.charSpacing, fill⟩ st1 .away rest
    simp only [List.append_assoc] at h2
    refine ⟨_, l2, st2, p2, by rw [k2, h2], ?_⟩
    have hs := spell_loop (e.fonts t.font).run (Content.justOf t) ⟨some (t.font, t.fontSize), t.charSpacing, fill⟩ t.text 0 (0, 0)
      (some (Content.calX t, Content.calY e t)) fine.glyphs (by simp)
    simp only [Content.signs1, fine.start]
    rw [signs_other (Content.itemStyle t) ⟨0, 0, 0, none⟩, List.forall₂_map_right_iff]
    refine hs.imp fun x y hxy => ?_
    obtain ⟨a1, a2, a3⟩ := hxy
    have hfont : t.font - 1 + 1 = t.font := Nat.sub_add_cancel fine.font
    exact ⟨by simpa only [Content.itemStyle, hfont] using a1, by rw [a2]; simp only [Content.itemStyle, hfont], by rw [a2]; rfl,
      fun c hc => by rw [a2]; exact k1 c hc, a3⟩

theorem letters_page (e : Content.Env) : ∀ (items : List Content.Item), (∀ t, Content.Item.text t ∈ items → Fine e t) → ∀ (l : Look) (st : List Look) (p : Pen),
    List.Forall₂ (Shows e) (letters l st p (Content.pageOps e items)) (Content.signsOf e items)
  | [], _, l, st, p => by cases p <;> exact .nil
  | i :: items, h, l, st, p => by
    simp only [Content.pageOps, List.flatMap_cons, Content.signsOf]
    obtain ⟨new, l', st', p', h1, h2⟩ := letters_item e i (fun t ht => h t (by simp [ht])) l st p (items.flatMap (Content.ops e))
    rw [h1]
    exact List.rel_append h2 (letters_page e items (fun t ht => h t (by simp [ht])) l' st' p')

end Verif.Program
