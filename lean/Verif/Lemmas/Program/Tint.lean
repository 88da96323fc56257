import Verif.Lemmas.Program.Inked
import Verif.Lemmas.Program.Figures
import Verif.Spec.TextTint
/- The graphics states characters are shown in. -/
set_option maxRecDepth 10000
namespace Verif.Program
open Viewer Paint

/-! ### The reader -/

theorem tints_near {a b : List Op} (h : List.Forall₂ ContentReader.NearOp a b) : ∀ (g : List Nat) (st : List (List Nat)),
    tints g st a = tints g st b := by
  induction h with
  | nil => intro g st; rfl
  | @cons x y a b hxy _ ih =>
    intro g st
    by_cases he : x = y
    · subst he
      cases x <;> simp only [tints, ih]
    · cases x <;> cases y <;> simp only [ContentReader.NearOp] at hxy <;>
        first
        | exact absurd hxy he
        | exact absurd rfl he
        | simp only [tints, ih]

/-- The codes are those the other reader reads. -/
theorem tints_letters : ∀ (ops : List Op) (g : List Nat) (st : List (List Nat)) (l : Look) (st' : List Look) (p : Pen),
    (tints g st ops).map Prod.fst = (letters l st' p ops).map (·.code)
  | [], g, st, l, st', p => by cases p <;> rfl
  | o :: ops, g, st, l, st', p => by
    have ih := fun g st l st' p => tints_letters ops g st l st' p
    have hs : ∀ (items : List TextShow.Item) (l : Look) (p : Option (ℚ × ℚ)), (spell l p items).map (·.code) = items.filterMap codeOf := by
      intro items
      induction items with
      | nil => intro l p; rfl
      | cons a items ih => intro l p; cases a <;> simp only [spell, codeOf, ih, List.filterMap_cons, List.map_cons]
    cases o with
    | TJ it =>
      simp only [tints, letters, List.map_append, hs, List.map_map]
      rw [ih g st l st' .away]
      simp [Function.comp_def]
    | Td x y => cases p <;> simp only [tints, letters] <;> exact ih _ _ _ _ _
    | _ => simp only [tints, letters]; exact ih _ _ _ _ _

/-- What an operator other than TJ does to the graphics states in effect and saved. -/
def eff (s : List Nat × List (List Nat)) : Op → List Nat × List (List Nat)
  | .q => (s.1, s.1 :: s.2)
  | .Q => (s.2.head?.getD s.1, s.2.tail)
  | .gs n => (s.1 ++ [n], s.2)
  | _ => s

theorem tints_noTJ : ∀ (ops : List Op), (∀ o ∈ ops, ∀ it, o ≠ .TJ it) → ∀ (s : List Nat × List (List Nat)) (rest : List Op),
    tints s.1 s.2 (ops ++ rest) = tints (ops.foldl eff s).1 (ops.foldl eff s).2 rest
  | [], _, s, rest => rfl
  | o :: ops, h, s, rest => by
    have ih := fun s => tints_noTJ ops (fun x hx => h x (by simp [hx])) s rest
    have h0 := h o (by simp)
    cases o with
    | TJ it => exact absurd rfl (h0 it)
    | q => exact ih (s.1, s.1 :: s.2)
    | Q => exact ih (s.2.head?.getD s.1, s.2.tail)
    | gs n => exact ih (s.1 ++ [n], s.2)
    | _ => exact ih s

theorem eff_gs : ∀ (ext : List Nat) (s : List Nat × List (List Nat)), (ext.map Op.gs).foldl eff s = (s.1 ++ ext, s.2)
  | [], s => by simp
  | n :: ext, s => by simp [eff, eff_gs ext]

/-- Operators that leave the graphics states alone. -/
def still : Op → Bool
  | .q | .Q | .gs _ | .TJ _ => false
  | _ => true

theorem eff_still : ∀ (ops : List Op), ops.all still = true → ∀ s, ops.foldl eff s = s
  | [], _, s => rfl
  | o :: ops, h, s => by
    simp only [List.all_cons, Bool.and_eq_true] at h
    have : eff s o = s := by cases o <;> simp [still] at h <;> rfl
    rw [List.foldl_cons, this, eff_still ops h.2]

theorem still_path (h : ℚ) (pts : List (ℚ × ℚ)) : (Content.pathOps h pts).all still = true := by
  cases pts with
  | nil => rfl
  | cons p rest => simp [Content.pathOps, still]

/-- Outside of items nothing is in effect. -/
theorem eff_item (e : Content.Env) (i : Content.Item) (hi : ∀ t, i ≠ .text t) (n : Nat) :
    ∃ m, (Content.ops e i).foldl eff ([], List.replicate n []) = ([], List.replicate m []) := by
  have pop : ∃ m, ((List.replicate n ([] : List Nat)).head?.getD [], (List.replicate n ([] : List Nat)).tail) = ([], List.replicate m []) := by
    cases n with
    | zero => exact ⟨0, rfl⟩
    | succ n => exact ⟨n, rfl⟩
  have inner : ∀ (j : Content.ImageItem) (st : List (List Nat)), (Content.imageInner e j).foldl eff ([], st) = ([], st) := by
    intro j st
    unfold Content.imageInner
    have h1 : ∀ (b : Bool) s, List.foldl eff s (if b then [Op.cm j.flipMat] else []) = s := by intro b s; cases b <;> rfl
    have h3 : ∀ (b : Bool) (x y a h : ℚ) s, List.foldl eff s (if b then Content.rotateOps e x y a h else []) = s := by intro b x y a h s; cases b <;> rfl
    cases hc : j.clipRect with
    | none =>
      simp only [List.foldl_append, List.foldl_cons, List.foldl_nil, h1, h3, eff_gs]
      simp [eff]
    | some r =>
      simp only [List.foldl_append, List.foldl_cons, List.foldl_nil, h1, h3, eff_gs]
      simp [eff]
  cases i with
  | text t => exact absurd rfl (hi t)
  | save => exact ⟨n + 1, rfl⟩
  | restore => exact pop
  | rotateReset => exact pop
  | rotate h a x y => exact ⟨n + 1, rfl⟩
  | line h x1 y1 x2 y2 ext => exact ⟨n, by simp [Content.ops, List.foldl_append, eff_gs, eff]⟩
  | rectangle h x y w t st ext => exact ⟨n, by simp [Content.ops, List.foldl_append, eff_gs, eff]⟩
  | polygon h pts st ext =>
    refine ⟨n, ?_⟩
    simp only [Content.ops, List.foldl_append, eff_gs, eff_still _ (still_path h pts)]
    simp [eff]
  | image j =>
    refine ⟨n, ?_⟩
    simp only [Content.ops, Content.imageOps]
    split
    · exact inner j _
    · simp only [List.foldl_append, Content.rotateOps, List.foldl_cons, List.foldl_nil, eff, inner]
      rfl
  | lineType a b => exact ⟨n, by cases a <;> cases b <;> rfl⟩
  | clipPolygon h pts =>
    refine ⟨n, ?_⟩
    simp only [Content.ops]
    rw [eff_still]
    simp [still_path, still]
  | _ => exact ⟨n, by first | rfl | (simp only [Content.ops]; rw [eff_still]; (first | rfl | (simp [still]; done) | (split <;> simp [still])))⟩

/-- The graphics states of the characters of an item. -/
def exts1 (t : Content.Item) : List (List Nat) := match t with
  | .text t => t.text.map fun _ => t.opt.ext
  | _ => []

def exts (items : List Content.Item) : List (List Nat) := items.flatMap exts1

theorem tints_item (e : Content.Env) (i : Content.Item) (hi : ∀ t, i = .text t → ∀ r ∈ t.text, ((e.fonts t.font).run.map.val r).isSome)
    (n : Nat) (rest : List Op) :
    ∃ new m, tints [] (List.replicate n []) (Content.ops e i ++ rest) = new ++ tints [] (List.replicate m []) rest ∧ new.map Prod.snd = exts1 i := by
  by_cases ht : ∀ t, i ≠ .text t
  · obtain ⟨m, hm⟩ := eff_item e i ht n
    have := tints_noTJ _ (Content.noTJ_item e i ht) ([], List.replicate n []) rest
    rw [hm] at this
    refine ⟨[], m, by simpa using this, ?_⟩
    cases i <;> first | rfl | exact absurd rfl (ht _)
  · push Not at ht
    obtain ⟨t, rfl⟩ := ht
    have glyphs := hi t rfl
    simp only [Content.ops, Content.textOps, List.append_assoc]
    have hco : (Content.tjOf e t).filterMap Viewer.codeOf = Content.itemCodes e t := by
      rw [← Content.codes_tjOf]
      congr 1
    have hlen : ((Content.tjOf e t).filterMap Viewer.codeOf).length = t.text.length := by
      rw [hco]
      unfold Content.itemCodes
      revert glyphs
      generalize t.text = l
      intro glyphs
      induction l with
      | nil => rfl
      | cons r l ih =>
        obtain ⟨g, hg⟩ := Option.isSome_iff_exists.1 (glyphs r (by simp))
        simp [hg, ih (fun x hx => glyphs x (by simp [hx]))]
    have hund : ∀ s, List.foldl eff s (if Content.has t.fontStyle Content.underline then Content.underlineOps e t else []) = s := by
      intro s
      apply eff_still
      split <;> simp [Content.underlineOps, still]
    have hbor : ∀ s, List.foldl eff s (Content.borderOps t) = s := by
      intro s
      apply eff_still
      have : ∀ (b : Bool) (x1 y1 x2 y2 : ℚ), (if b then Content.borderLine x1 y1 x2 y2 else []).all still = true := by
        intro b x1 y1 x2 y2; cases b <;> simp [Content.borderLine, still]
      simp [Content.borderOps, List.all_append, this]
    have hcol : ∀ s, List.foldl eff s (Content.colourOps t) = s := by
      intro s
      apply eff_still
      unfold Content.colourOps
      split
      · cases t.colour <;> simp [still]
      · rfl
    have htj : ∀ o ∈ (if Content.has t.fontStyle Content.underline then Content.underlineOps e t else []) ++ (Content.borderOps t ++
        (if t.opt.ext ≠ [] then [Paint.Op.Q] else [])), ∀ it, o ≠ .TJ it := by
      intro o ho it
      rintro rfl
      simp only [List.mem_append] at ho
      rcases ho with ho | ho | ho
      · split at ho <;> simp [Content.underlineOps] at ho
      · have hl : ∀ (b : Bool) (x1 y1 x2 y2 : ℚ), Paint.Op.TJ it ∉ (if b then Content.borderLine x1 y1 x2 y2 else []) := by
          intro b x1 y1 x2 y2 h
          cases b <;> simp [Content.borderLine] at h
        simp only [Content.borderOps, List.mem_append] at ho
        rcases ho with ((ho | ho) | ho) | ho <;> exact hl _ _ _ _ _ ho
      · split at ho <;> simp at ho
    have hpre : ∀ o ∈ (if t.opt.ext ≠ [] then [Paint.Op.q] else []) ++ (t.opt.ext.map Paint.Op.gs ++
        ([.BT, .Td (Content.calX t) (Content.calY e t), .Tf t.font t.fontSize, .Tc t.charSpacing] ++ Content.colourOps t)), ∀ it, o ≠ .TJ it := by
      intro o ho it
      rintro rfl
      simp only [List.mem_append, List.mem_map] at ho
      rcases ho with ho | ⟨_, _, ho⟩ | ho | ho
      · split at ho <;> simp at ho
      · simp at ho
      · simp at ho
      · unfold Content.colourOps at ho
        split at ho
        · cases hc : t.colour <;> simp [hc] at ho
        · simp at ho
    have hA : ((if t.opt.ext ≠ [] then [Paint.Op.q] else []) ++ (t.opt.ext.map Paint.Op.gs ++
        ([Op.BT, Op.Td (Content.calX t) (Content.calY e t), Op.Tf t.font t.fontSize, Op.Tc t.charSpacing] ++ Content.colourOps t))).foldl eff ([], List.replicate n []) =
        (t.opt.ext, if t.opt.ext ≠ [] then [] :: List.replicate n [] else List.replicate n []) := by
      simp only [List.foldl_append, hcol]
      by_cases hx : t.opt.ext = []
      · simp [hx, eff]
      · simp [hx, eff, eff_gs]
    have hB : ((if Content.has t.fontStyle Content.underline then Content.underlineOps e t else []) ++ (Content.borderOps t ++
        (if t.opt.ext ≠ [] then [Paint.Op.Q] else []))).foldl eff (t.opt.ext, if t.opt.ext ≠ [] then [] :: List.replicate n [] else List.replicate n []) =
        ([], List.replicate n []) := by
      rw [List.foldl_append, hund, List.foldl_append, hbor]
      by_cases hx : t.opt.ext = []
      · simp [hx]
      · simp [hx, eff]
    have h1 := fun l => tints_noTJ _ hpre ([], List.replicate n []) l
    have h2 := fun l => tints_noTJ _ htj (t.opt.ext, if t.opt.ext ≠ [] then [] :: List.replicate n [] else List.replicate n []) l
    rw [hA] at h1
    rw [hB] at h2
    simp only [List.append_assoc] at h1 h2
    refine ⟨((Content.tjOf e t).filterMap Viewer.codeOf).map (fun c => (c, t.opt.ext)), n, ?_, ?_⟩
    · rw [h1]
      simp only [List.cons_append, List.nil_append, tints]
      rw [h2]
    · simp only [List.map_map, exts1]
      rw [show (Prod.snd ∘ fun c : Nat => (c, t.opt.ext)) = fun _ => t.opt.ext from rfl]
      rw [List.map_const', List.map_const', hlen]

theorem tints_page (e : Content.Env) : ∀ (items : List Content.Item),
    (∀ t, Content.Item.text t ∈ items → ∀ r ∈ t.text, ((e.fonts t.font).run.map.val r).isSome) → ∀ (n : Nat),
    (tints [] (List.replicate n []) (Content.pageOps e items)).map Prod.snd = exts items
  | [], _, n => rfl
  | i :: items, h, n => by
    simp only [Content.pageOps, List.flatMap_cons, exts]
    obtain ⟨new, m, h1, h2⟩ := tints_item e i (fun t ht => h t (by simp [ht])) n (items.flatMap (Content.ops e))
    rw [h1, List.map_append, h2]
    exact congrArg _ (tints_page e items (fun t ht => h t (by simp [ht])) m)

end Verif.Program
