import Verif.Model.Restart
/- AddPage is the only call that changes the number of pages. -/
namespace Verif.Doc

theorem getContent_num {d : Doc} : d.getContent.1.numPages = d.numPages := by
  unfold Doc.getContent
  cases d.content <;> rfl

theorem append_num {d : Doc} {e : Entry} : (d.append e).numPages = d.numPages := getContent_num

theorem appendPaged_num {d : Doc} {e : Entry} : (d.appendPaged e).1.numPages = d.numPages := by
  unfold Doc.appendPaged
  split
  · exact getContent_num
  · exact append_num

theorem extGState_num {d : Doc} {g : GKey} : (d.extGState g).1.numPages = d.numPages := by
  unfold Doc.extGState
  cases assoc d.gss g <;> rfl

theorem saveTransparency_num {d : Doc} {t : Tr} : (d.saveTransparency t).1.numPages = d.numPages := by
  unfold Doc.saveTransparency
  cases assoc d.trs (t.alpha3, t.blend) with
  | some n => rfl
  | none =>
    simp only []
    split
    · rfl
    · exact extGState_num

theorem cachedTransparency_num {d : Doc} {t : Option Tr} : (d.cachedTransparency t).1.numPages = d.numPages := by
  cases t with
  | none => rfl
  | some t => exact saveTransparency_num

theorem register_num {d : Doc} {id i : Nat} {a b : Bool} : (d.register id i a b).numPages = d.numPages := by
  cases a <;> cases b <;> rfl

theorem imageByHolder_num {d : Doc} {tag : Nat} {img : Img} {gs : List Nat} {b : Bool} : (d.imageByHolder tag img gs b).1.numPages = d.numPages := by
  unfold Doc.imageByHolder
  cases assoc d.imgs img.id with
  | some i => exact appendPaged_num
  | none =>
    cases img.parsed with
    | none => rfl
    | some p =>
      have := appendPaged_num (d := d.add (.image img.id ⟨false, p.1, p.2, b⟩ none none)) (e := { tag := tag, xobj := some (d.objs.length + 1), gs := gs })
      simp only []
      revert this
      generalize (d.add (.image img.id ⟨false, p.1, p.2, b⟩ none none)).appendPaged { tag := tag, xobj := some (d.objs.length + 1), gs := gs } = r
      obtain ⟨r, o⟩ := r
      intro this
      cases o with
      | ok => exact register_num.trans this
      | _ => exact this

theorem softMask_num {d : Doc} {g : Nat} : (d.softMask g).1.numPages = d.numPages := by
  unfold Doc.softMask
  cases assoc d.masks g <;> rfl

theorem maskGroup_num {d : Doc} {tag x : Nat} {gs : List Nat} : (d.maskGroup tag x gs).1.numPages = d.numPages :=
  extGState_num.trans softMask_num

theorem maskHolder_num {d : Doc} {tag : Nat} {img : Img} {gs : List Nat} : (d.maskHolder tag img gs).1.numPages = d.numPages := by
  unfold Doc.maskHolder
  cases assoc d.imgs img.id with
  | some i =>
    simp only []
    split
    · exact getContent_num
    · exact maskGroup_num.trans getContent_num
  | none =>
    cases img.parsed with
    | none => rfl
    | some p =>
      simp only []
      split
      · exact getContent_num
      · exact (maskGroup_num.trans register_num).trans getContent_num

theorem imageWithOptions_num {d : Doc} {tag : Nat} {img : Img} {tr : Option Tr} {mask : Option (Img × Option Tr)} :
    (d.imageWithOptions tag img tr mask).1.numPages = d.numPages := by
  unfold Doc.imageWithOptions
  cases mask with
  | none => exact imageByHolder_num.trans cachedTransparency_num
  | some m =>
    have := maskHolder_num (d := ((d.cachedTransparency tr).1.cachedTransparency m.2).1) (tag := tag) (img := m.1)
      (gs := ((d.cachedTransparency tr).1.cachedTransparency m.2).2.toList)
    rw [cachedTransparency_num, cachedTransparency_num] at this
    simp only []
    revert this
    generalize ((d.cachedTransparency tr).1.cachedTransparency m.2).1.maskHolder tag m.1 ((d.cachedTransparency tr).1.cachedTransparency m.2).2.toList = r
    obtain ⟨r, g, o⟩ := r
    intro this
    cases g <;> cases o <;> first | exact imageByHolder_num.trans this | exact this

theorem step_num {d : Doc} (op : Op) : (step d op).1.numPages = d.numPages + if op = .addPage then 1 else 0 := by
  cases op with
  | addPage => rfl
  | draw t b => cases b <;> simp [step, append_num, appendPaged_num]
  | drawTr t tr => exact appendPaged_num.trans cachedTransparency_num
  | text t =>
    simp only [step]
    cases d.curFont with
    | none => rfl
    | some p => exact appendPaged_num
  | cell t tr =>
    simp only [step]
    cases (d.cachedTransparency tr).1.curFont with
    | none => exact cachedTransparency_num
    | some p => exact appendPaged_num.trans cachedTransparency_num
  | setTransparency t => exact saveTransparency_num
  | clearTransparency => rfl
  | addFont f s ok =>
    cases ok with
    | false => rfl
    | true =>
      simp only [step, if_true]
      unfold Doc.addFont
      simp only []
      split <;> rfl
  | setFont f s =>
    simp only [step]
    unfold Doc.setFont
    split <;> rfl
  | image t i => exact imageByHolder_num
  | imageOpt t i tr m => exact imageWithOptions_num
  | addColorSpace n =>
    simp only [step]
    unfold Doc.addColorSpace
    simp only []
    split <;> rfl
  | setColorSpace t n =>
    simp only [step]
    unfold Doc.setColorSpace
    split
    · exact append_num
    · rfl
  | externalLink =>
    simp only [step]
    unfold Doc.addLink
    cases d.curPage <;> rfl
  | internalLink a =>
    simp only [step]
    unfold Doc.addLink
    cases d.curPage <;> rfl
  | setAnchor n y => rfl
  | addOutline t =>
    simp only [step]
    unfold Doc.addOutline
    cases d.lastOutline <;> rfl
  | importObjects n => rfl
  | setPage n =>
    simp only [step]
    unfold Doc.setPage
    split <;> rfl
  | compile =>
    simp only [step]
    unfold Doc.prepare Doc.prep0 Doc.markOutlines
    cases d.prot
    · simp only [Bool.false_eq_true, if_false]
      split
      · split <;> rfl
      · rfl
    · simp only [if_true]
      split
      · split <;> rfl
      · rfl

end Verif.Doc

namespace Verif.Program

theorem docOp_adds {n : Nat} {c : Call} {op : Doc.Op} (h : docOp n c = some (some op)) : op = .addPage ↔ isPage c = true := by
  cases c with
  | object o =>
    simp only [docOp] at h
    split at h
    · rename_i ho
      simp only [Option.some.injEq] at h
      subst h
      cases o <;> simp [isPage, objectOp] at ho ⊢
    · cases h
  | plain c =>
    simp only [docOp] at h
    obtain ⟨b, -, h⟩ := Option.map_eq_some_iff.1 h
    obtain ⟨b, -, rfl⟩ := Option.map_eq_some_iff.1 h
    simp [isPage]
  | _ => simp only [docOp, Option.some.injEq] at h; subst h; simp [isPage]

theorem docOp_silent {n : Nat} {c : Call} (h : docOp n c = some none) : isPage c = false := by
  cases c <;> first | rfl | simp [docOp] at h

theorem step_num {e : Content.Env} {s t : St} {c : Call} (h : step e s c = some t) : t.doc.numPages = s.doc.numPages + if isPage c = true then 1 else 0 := by
  unfold step at h
  cases ho : docOp s.next c with
  | none => rw [ho] at h; cases h
  | some o =>
    rw [ho] at h
    cases o with
    | none =>
      obtain ⟨_, -, rfl⟩ := Option.map_eq_some_iff.1 h
      simp [docOp_silent ho]
    | some op =>
      have hn := Doc.step_num (d := s.doc) op
      have hp : (if op = .addPage then 1 else 0) = (if isPage c = true then 1 else 0) := by
        by_cases hb : isPage c = true
        · rw [if_pos hb, if_pos ((docOp_adds ho).2 hb)]
        · rw [if_neg hb, if_neg (fun e => hb ((docOp_adds ho).1 e))]
      rw [hp] at hn
      simp only [] at h
      rw [← hn]
      revert h
      generalize Doc.step s.doc op = r
      obtain ⟨d, o⟩ := r
      intro h
      cases o with
      | panic => cases h
      | err => cases h; rfl
      | ok =>
        simp only [] at h
        cases hc : contentCall d (d.lastEntry.getD { tag := 0 }) c with
        | none => rw [hc] at h; cases h; rfl
        | some q =>
          rw [hc] at h
          obtain ⟨_, -, rfl⟩ := Option.map_eq_some_iff.1 h
          rfl

end Verif.Program

namespace Verif.Typeset

theorem step_num {base : Content.Env} {s : St} {c : Call} {p : St × Option Program.Call} (h : step base s c = some p) :
    p.1.prog.doc.numPages = s.prog.doc.numPages + if Layout.addsPage c = true then 1 else 0 := by
  unfold step at h
  cases hp : s.prepare c with
  | none => rw [hp] at h; cases h
  | some q =>
    rw [hp] at h
    obtain ⟨f, k⟩ := q
    have hk : ∀ k', k = some k' → (Program.isPage k' = true ↔ Layout.addsPage c = true) := by
      rintro k' rfl
      cases c with
      | addFont a b face =>
        simp only [St.prepare] at hp
        split at hp <;> first | (simp only [Option.some.injEq, Prod.mk.injEq] at hp; obtain ⟨-, rfl⟩ := hp; simp [Program.isPage, Layout.addsPage]) | cases hp
      | other k =>
        simp only [St.prepare] at hp
        split at hp
        · simp only [Option.some.injEq, Prod.mk.injEq] at hp
          obtain ⟨-, rfl⟩ := hp
          simp [Layout.addsPage]
        · cases hp
      | _ =>
        simp only [St.prepare] at hp
        obtain ⟨_, -, hp⟩ := Option.map_eq_some_iff.1 hp
        simp only [Prod.mk.injEq, Option.some.injEq, reduceCtorEq, and_false] at hp
        try (obtain ⟨-, rfl⟩ := hp; simp [Program.isPage, Layout.addsPage])
    cases k with
    | none =>
      simp only [Option.some.injEq] at h
      subst h
      cases c with
      | measure t => rfl
      | other k => simp only [St.prepare] at hp; split at hp <;> simp at hp
      | addFont a b face => simp only [St.prepare] at hp; split at hp <;> simp at hp
      | _ => rfl
    | some k =>
      obtain ⟨t, ht, rfl⟩ := Option.map_eq_some_iff.1 h
      rw [Program.step_num ht]
      by_cases hb : Layout.addsPage c = true
      · rw [if_pos hb, if_pos ((hk k rfl).2 hb)]
      · rw [if_neg hb, if_neg (fun e => hb ((hk k rfl).1 e))]

end Verif.Typeset

namespace Verif.Layout

def Log.num (l : Log) : Nat := l.s.prog.doc.numPages

/-- If there is a result, its counter is `m`. -/
def Steady {α : Type} (g : α → Log) (m : Nat) (o : Option α) : Prop := ∀ a, o = some a → (g a).num = m

theorem Steady.bind {α β : Type} {g : α → Log} {g' : β → Log} {m : Nat} {o : Option α} {f : α → Option β} (h : Steady g m o)
    (hf : ∀ a, (g a).num = m → Steady g' m (f a)) : Steady g' m (o.bind f) := by
  intro b hb
  obtain ⟨a, h1, h2⟩ := Option.bind_eq_some_iff.1 hb
  exact hf a (h a h1) b h2

theorem kept_bind' {α β : Type} {g' : β → Log} {m : Nat} {o : Option α} {f : α → Option β} (hf : ∀ a, Steady g' m (f a)) : Steady g' m (o.bind f) := by
  intro b hb
  obtain ⟨a, h1, h2⟩ := Option.bind_eq_some_iff.1 hb
  exact hf a b h2

theorem kept_some {α : Type} {g : α → Log} {m : Nat} {a : α} (h : (g a).num = m) : Steady g m (some a) := by
  intro b hb; cases hb; exact h

theorem kept_none {α : Type} {g : α → Log} {m : Nat} : Steady g m none := fun _ h => by cases h

variable {base : Content.Env} {m : Nat}

theorem act_num {l l' : Log} {c : Typeset.Call} (h : l.act base c = some l') : l'.num = l.num + if addsPage c = true then 1 else 0 := by
  obtain ⟨p, hp, rfl⟩ := Option.map_eq_some_iff.1 h
  exact Typeset.step_num hp

theorem act_kept {l : Log} {c : Typeset.Call} (hl : l.num = m) (hc : addsPage c = false) : Steady id m (l.act base c) := by
  intro l' h
  rw [id, act_num h, hc, hl]; rfl

theorem acts_kept (cs : List Typeset.Call) {l : Log} (hl : l.num = m) (hc : ∀ c ∈ cs, addsPage c = false) : Steady id m (l.acts base cs) := by
  induction cs generalizing l with
  | nil => exact kept_some hl
  | cons c cs ih => exact (act_kept hl (hc c (by simp))).bind fun l' h => ih h fun c h => hc c (by simp [h])

theorem measure_kept {l : Log} {t : List Nat} (hl : l.num = m) : Steady Prod.snd m (l.measure base t) := by
  refine kept_bind' fun w => ?_
  intro p hp
  obtain ⟨l', h1, rfl⟩ := Option.map_eq_some_iff.1 hp
  exact act_kept hl rfl _ h1

theorem lineAndBreak_kept {l : Log} {w lh x : ℚ} {t : List Nat} (hl : l.num = m) : Steady id m (lineAndBreak base l w lh x t) :=
  acts_kept _ hl (by simp [addsPage, Program.isPage])

theorem multiCellLoop_kept {r : Units.Rect} {lh x : ℚ} (t : List Nat) {l : Log} {line : List Nat} {total : ℚ} (hl : l.num = m) :
    Steady id m (multiCellLoop base r lh x l line total t) := by
  induction t generalizing l line total with
  | nil => exact kept_some hl
  | cons v rest ih =>
    unfold multiCellLoop
    split
    · exact kept_some hl
    refine (measure_kept hl).bind fun p hp => (measure_kept hp).bind fun q hq => ?_
    have h1 : Steady id m (if p.1 + q.1 > r.w then lineAndBreak base q.2 r.w lh x line else some q.2) := by
      split
      · exact lineAndBreak_kept hq
      · exact kept_some hq
    refine h1.bind fun l1 hl1 => ?_
    split
    · exact lineAndBreak_kept hl1
    · exact ih hl1

theorem multiCell_kept {l : Log} {r : Units.Rect} {t : List Nat} (hl : l.num = m) : Steady id m (multiCell base l r t) :=
  kept_bind' fun _ => kept_bind' fun _ => (act_kept hl rfl).bind fun _ h => multiCellLoop_kept _ h

theorem fitLoop_kept {r : Units.Rect} {lh : ℚ} (t : List Nat) {l : Log} {line : List Nat} {total : ℚ} (hl : l.num = m) :
    Steady Prod.snd m (fitLoop base r lh l line total t) := by
  induction t generalizing l line total with
  | nil => exact kept_some hl
  | cons v rest ih =>
    unfold fitLoop
    split
    · exact kept_some hl
    · exact (measure_kept hl).bind fun p hp => (measure_kept hp).bind fun q hq => ih hq

theorem isFit_kept {l : Log} {r : Units.Rect} {t : List Nat} (hl : l.num = m) : Steady Prod.snd m (isFit base l r t) :=
  kept_bind' fun _ => kept_bind' fun _ => (act_kept hl rfl).bind fun _ h => fitLoop_kept _ h

theorem splitLoop_kept {w sw : ℚ} {b : Content.BreakOption} {text : List Nat} (n : Nat) {l : Log} {t : Split.St} (hl : l.num = m) :
    Steady Prod.fst m (splitLoop base w sw b text n l t) := by
  induction n generalizing l t with
  | zero => exact kept_none
  | succ n ih =>
    unfold splitLoop
    split
    · exact kept_some hl
    · refine (measure_kept hl).bind fun p hp => (measure_kept hp).bind fun q hq => ?_
      split
      · exact ih hq
      · exact kept_some hq
      · exact kept_none

theorem optionCalls_page {w h lh x : ℚ} {opt : Content.CellOption} {tr : Option Doc.Tr} (ls : List (List Nat)) :
    ∀ c ∈ optionCalls w h lh x opt tr ls, addsPage c = false := by
  induction ls with
  | nil => simp [optionCalls]
  | cons l ls ih =>
    intro c hc
    rcases List.mem_append.1 hc with hc | hc
    · simp only [List.mem_cons, List.not_mem_nil, or_false] at hc
      rcases hc with rfl | rfl | rfl <;> rfl
    · exact ih c hc

theorem multiCellOpt_kept {n : Nat} {l : Log} {r : Units.Rect} {t : List Nat} {opt : Content.CellOption} {b : Content.BreakOption} {tr : Option Doc.Tr}
    (hl : l.num = m) : Steady id m (multiCellOpt base n l r t opt b tr) := by
  refine kept_bind' fun lh => (act_kept hl rfl).bind fun l1 h1 => ?_
  split
  · split
    · exact kept_some h1
    · exact kept_none
  · refine Steady.bind (g := Prod.fst) ?_ fun p hp => acts_kept _ hp (optionCalls_page _)
    exact (measure_kept h1).bind fun q hq => splitLoop_kept n hq

theorem ofTable_page (c : Content.Call) : addsPage (ofTable c) = false := by
  cases c <;> rfl

theorem drawCell_kept {n : Nat} {t : Table.Table} {l : Log} {c : Table.Cell} (hl : l.num = m) : Steady id m (drawCell base n t l c) := by
  refine Steady.bind (g := id) (acts_kept _ hl fun c hc => ?_) fun l1 h1 => multiCellOpt_kept h1
  obtain ⟨k, -, rfl⟩ := List.mem_map.1 hc
  exact ofTable_page k

theorem drawCells_kept {n : Nat} {t : Table.Table} (cs : List Table.Cell) {l : Log} (hl : l.num = m) : Steady id m (drawCells base n t l cs) := by
  induction cs generalizing l with
  | nil => exact kept_some hl
  | cons c cs ih => exact (drawCell_kept hl).bind fun l1 h1 => ih h1

theorem run_kept {n : Nat} {l : Log} (b : Block) (hl : l.num = m) : Steady id m (b.run base n l) := by
  cases b with
  | basic c =>
    simp only [Block.run]
    split
    · exact kept_none
    · rename_i h; exact act_kept hl (by simpa using h)
  | multiCell r t => exact multiCell_kept hl
  | ifFits r t =>
    refine Steady.bind (g := Prod.snd) (isFit_kept hl) fun p hp => ?_
    split
    · exact multiCell_kept hp
    · exact kept_some hp
  | multiCellOpt r t opt b tr => exact multiCellOpt_kept hl
  | table t =>
    refine kept_bind' fun cs => (drawCells_kept cs hl).bind fun l1 h1 => acts_kept _ h1 fun c hc => ?_
    obtain ⟨k, -, rfl⟩ := List.mem_map.1 hc
    exact ofTable_page k

theorem blocks_kept {n : Nat} (bs : List Block) {l : Log} (hl : l.num = m) : Steady id m (blocks base n l bs) := by
  induction bs generalizing l with
  | nil => exact kept_some hl
  | cons b bs ih => exact (run_kept b hl).bind fun l1 h1 => ih h1

theorem reset_kept {l : Log} (hl : l.num = m) : Steady id m (reset base l) :=
  acts_kept _ hl (by simp [addsPage, Program.isPage])

end Verif.Layout
