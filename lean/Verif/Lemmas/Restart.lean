import Verif.Model.Restart
/- The number of pages is only counted: nothing else depends on it. -/
namespace Verif.Doc

/-- The document, with `k` pages more on the counter. -/
def Doc.later (k : Nat) (d : Doc) : Doc := { d with numPages := d.numPages + k }

variable {k : Nat} {d : Doc}

theorem add_later {o : Obj} : (d.later k).add o = (d.add o).later k := rfl
theorem upd_later {i : Nat} {f : Obj → Obj} : (d.later k).upd i f = (d.upd i f).later k := rfl

theorem getContent_later : (d.later k).getContent = (d.getContent.1.later k, d.getContent.2) := by
  unfold Doc.getContent
  rw [show (d.later k).content = d.content from rfl]
  cases d.content <;> rfl

theorem append_later {e : Entry} : (d.later k).append e = (d.append e).later k := by
  unfold Doc.append
  rw [getContent_later]; rfl

theorem appendPaged_later {e : Entry} : (d.later k).appendPaged e = ((d.appendPaged e).1.later k, (d.appendPaged e).2) := by
  unfold Doc.appendPaged
  rw [getContent_later, append_later, show (d.later k).curPage = d.curPage from rfl]
  split <;> rfl

theorem extGState_later {g : GKey} : (d.later k).extGState g = ((d.extGState g).1.later k, (d.extGState g).2) := by
  unfold Doc.extGState
  rw [show (d.later k).gss = d.gss from rfl]
  cases assoc d.gss g <;> rfl

theorem saveTransparency_later {t : Tr} : (d.later k).saveTransparency t = ((d.saveTransparency t).1.later k, (d.saveTransparency t).2) := by
  unfold Doc.saveTransparency
  rw [show (d.later k).trs = d.trs from rfl, extGState_later]
  cases assoc d.trs (t.alpha3, t.blend) with
  | some n => rfl
  | none => simp only []; split <;> rfl

theorem cachedTransparency_later {t : Option Tr} : (d.later k).cachedTransparency t = ((d.cachedTransparency t).1.later k, (d.cachedTransparency t).2) := by
  cases t with
  | none => rfl
  | some t => exact saveTransparency_later

theorem register_later {id i : Nat} {a b : Bool} : (d.later k).register id i a b = (d.register id i a b).later k := by
  cases a <;> cases b <;> rfl

theorem imageByHolder_later {tag : Nat} {img : Img} {gs : List Nat} {b : Bool} :
    (d.later k).imageByHolder tag img gs b = ((d.imageByHolder tag img gs b).1.later k, (d.imageByHolder tag img gs b).2) := by
  unfold Doc.imageByHolder
  rw [show (d.later k).imgs = d.imgs from rfl, show (d.later k).objs = d.objs from rfl]
  cases assoc d.imgs img.id with
  | some i => exact appendPaged_later
  | none =>
    cases img.parsed with
    | none => rfl
    | some p =>
      simp only [add_later, appendPaged_later]
      generalize (d.add (.image img.id ⟨false, p.1, p.2, b⟩ none none)).appendPaged { tag := tag, xobj := some (d.objs.length + 1), gs := gs } = r
      obtain ⟨r, o⟩ := r
      cases o <;> simp only [register_later]

theorem softMask_later {g : Nat} : (d.later k).softMask g = ((d.softMask g).1.later k, (d.softMask g).2) := by
  unfold Doc.softMask
  rw [show (d.later k).masks = d.masks from rfl]
  cases assoc d.masks g <;> rfl

theorem maskGroup_later {tag x : Nat} {gs : List Nat} : (d.later k).maskGroup tag x gs = ((d.maskGroup tag x gs).1.later k, (d.maskGroup tag x gs).2) := by
  unfold Doc.maskGroup
  simp only [add_later, softMask_later, extGState_later]
  rfl

theorem maskHolder_later {tag : Nat} {img : Img} {gs : List Nat} :
    (d.later k).maskHolder tag img gs = ((d.maskHolder tag img gs).1.later k, (d.maskHolder tag img gs).2) := by
  unfold Doc.maskHolder
  rw [show (d.later k).imgs = d.imgs from rfl, show (d.later k).objs = d.objs from rfl, show (d.later k).curPage = d.curPage from rfl]
  cases assoc d.imgs img.id with
  | some i =>
    simp only [getContent_later, maskGroup_later]
    split <;> rfl
  | none =>
    cases img.parsed with
    | none => rfl
    | some p =>
      simp only [add_later, getContent_later, register_later, maskGroup_later, show ∀ o, ((d.add o).later k).curPage = (d.add o).curPage from fun _ => rfl]
      split <;> rfl

theorem imageWithOptions_later {tag : Nat} {img : Img} {tr : Option Tr} {mask : Option (Img × Option Tr)} :
    (d.later k).imageWithOptions tag img tr mask = ((d.imageWithOptions tag img tr mask).1.later k, (d.imageWithOptions tag img tr mask).2) := by
  unfold Doc.imageWithOptions
  cases mask with
  | none => simp only [cachedTransparency_later, imageByHolder_later]
  | some m =>
    simp only [cachedTransparency_later, maskHolder_later]
    generalize ((d.cachedTransparency tr).1.cachedTransparency m.2).1.maskHolder tag m.1 ((d.cachedTransparency tr).1.cachedTransparency m.2).2.toList = r
    obtain ⟨r, g, o⟩ := r
    cases g <;> cases o <;> simp only [imageByHolder_later]

/-- Every call does the same, whatever the counter says. -/
theorem step_later (op : Op) : step (d.later k) op = ((step d op).1.later k, (step d op).2) := by
  cases op with
  | addPage => simp [step, Doc.addPage, Doc.later, Doc.add, Nat.add_right_comm]
  | draw t b => cases b <;> simp [step, append_later, appendPaged_later]
  | drawTr t tr => simp only [step, cachedTransparency_later, appendPaged_later]
  | text t =>
    simp only [step, show (d.later k).curFont = d.curFont from rfl]
    cases d.curFont with
    | none => rfl
    | some p => exact appendPaged_later
  | cell t tr =>
    simp only [step, cachedTransparency_later, show ∀ d : Doc, (d.later k).curFont = d.curFont from fun _ => rfl]
    cases (d.cachedTransparency tr).1.curFont with
    | none => rfl
    | some p => exact appendPaged_later
  | setTransparency t => simp only [step, saveTransparency_later]; rfl
  | clearTransparency => rfl
  | addFont f s ok =>
    cases ok with
    | false => rfl
    | true =>
      simp only [step, if_true, Prod.mk.injEq, and_true]
      unfold Doc.addFont
      simp only [add_later, upd_later, show (d.later k).relFonts = d.relFonts from rfl, show (d.later k).objs = d.objs from rfl]
      split <;> rfl
  | setFont f s =>
    simp only [step]
    unfold Doc.setFont
    rw [show (d.later k).objs = d.objs from rfl]
    split <;> rfl
  | image t i => exact imageByHolder_later
  | imageOpt t i tr m => exact imageWithOptions_later
  | addColorSpace n =>
    simp only [step]
    unfold Doc.addColorSpace
    rw [show (d.later k).objs = d.objs from rfl, show (d.later k).relCSs = d.relCSs from rfl]
    simp only []
    split <;> rfl
  | setColorSpace t n =>
    simp only [step]
    unfold Doc.setColorSpace
    rw [show (d.later k).objs = d.objs from rfl]
    split
    · rw [append_later]
    · rfl
  | externalLink =>
    simp only [step]
    unfold Doc.addLink
    rw [show (d.later k).curPage = d.curPage from rfl]
    cases d.curPage <;> rfl
  | internalLink a =>
    simp only [step]
    unfold Doc.addLink
    rw [show (d.later k).curPage = d.curPage from rfl]
    cases d.curPage <;> rfl
  | setAnchor n y => rfl
  | addOutline t =>
    simp only [step, Prod.mk.injEq, and_true]
    unfold Doc.addOutline
    rw [show (d.later k).lastOutline = d.lastOutline from rfl, show (d.later k).objs = d.objs from rfl, show (d.later k).curPageId = d.curPageId from rfl]
    cases d.lastOutline <;> rfl
  | importObjects n => rfl
  | setPage n =>
    simp only [step]
    unfold Doc.setPage
    rw [show (d.later k).objs = d.objs from rfl]
    split <;> rfl
  | compile =>
    simp only [step, Prod.mk.injEq, and_true]
    unfold Doc.prepare Doc.prep0 Doc.markOutlines
    cases hp : d.prot with
    | true =>
      simp only [show (d.later k).prot = d.prot from rfl, hp, if_true, add_later, show ((d.add .encryption).later k).objs = (d.add .encryption).objs from rfl]
      split
      · split <;> rfl
      · rfl
    | false =>
      simp only [show (d.later k).prot = d.prot from rfl, hp, Bool.false_eq_true, if_false, show (d.later k).objs = d.objs from rfl]
      split
      · split <;> rfl
      · rfl

end Verif.Doc

namespace Verif.Program

def St.later (k : Nat) (s : St) : St := { s with doc := s.doc.later k }

theorem contentCall_later {k : Nat} {d : Doc.Doc} {en : Doc.Entry} (c : Call) : contentCall (d.later k) en c = contentCall d en c := by
  cases c <;> rfl

theorem step_later {e : Content.Env} {k : Nat} {s : St} (c : Call) : step e (s.later k) c = (step e s c).map (St.later k) := by
  unfold step
  rw [show (s.later k).next = s.next from rfl, show (s.later k).doc = s.doc.later k from rfl]
  cases docOp s.next c with
  | none => rfl
  | some o =>
    cases o with
    | none =>
      simp only [contentCall_later, Option.map_map]
      rfl
    | some op =>
      simp only [Doc.step_later]
      generalize Doc.step s.doc op = r
      obtain ⟨d, o⟩ := r
      cases o with
      | panic => rfl
      | err => rfl
      | ok =>
        simp only [contentCall_later, show (d.later k).lastEntry = d.lastEntry from rfl]
        cases contentCall d (d.lastEntry.getD { tag := 0 }) c with
        | none => rfl
        | some q => simp only [Option.map_map]; rfl

end Verif.Program

namespace Verif.Typeset

def St.later (k : Nat) (s : St) : St := { s with prog := s.prog.later k }

variable {base : Content.Env} {k : Nat} {s : St}

theorem addChars_later (t : List Nat) : (s.later k).addChars t = s.addChars t := rfl

theorem prepare_later (c : Call) : (s.later k).prepare c = s.prepare c := by
  cases c <;> rfl

theorem env_later {f : Nat → Option Loaded} : St.env base ⟨s.prog.later k, f⟩ = St.env base ⟨s.prog, f⟩ := rfl

theorem step_later (c : Call) : step base (s.later k) c = (step base s c).map fun p => (p.1.later k, p.2) := by
  unfold step
  rw [prepare_later]
  cases s.prepare c with
  | none => rfl
  | some p =>
    obtain ⟨f, q⟩ := p
    cases q with
    | none => rfl
    | some q =>
      simp only [St.later, env_later, Program.step_later, Option.map_map]
      rfl

theorem measureWidth_later (t : List Nat) : (s.later k).measureWidth base t = s.measureWidth base t := rfl
theorem measureHeight_later (t : List Nat) : (s.later k).measureHeight base t = s.measureHeight base t := rfl

end Verif.Typeset

namespace Verif.Layout

def Log.later (k : Nat) (l : Log) : Log := { l with s := l.s.later k }

variable {base : Content.Env} {k : Nat}

theorem act_later {l : Log} (c : Typeset.Call) : (l.later k).act base c = (l.act base c).map (Log.later k) := by
  simp only [Log.act, Log.later, Typeset.step_later, Option.map_map]
  rfl

theorem acts_later (cs : List Typeset.Call) {l : Log} : (l.later k).acts base cs = (l.acts base cs).map (Log.later k) := by
  induction cs generalizing l with
  | nil => rfl
  | cons c cs ih =>
    simp only [Log.acts, act_later]
    cases l.act base c with
    | none => rfl
    | some l' => exact ih

theorem measure_later {l : Log} (t : List Nat) : (l.later k).measure base t = (l.measure base t).map fun p => (p.1, p.2.later k) := by
  unfold Log.measure
  rw [show (l.later k).s = l.s.later k from rfl, Typeset.measureWidth_later]
  cases l.s.measureWidth base t with
  | none => rfl
  | some w => simp only [Option.bind_some, act_later, Option.map_map]; rfl

theorem lineAndBreak_later {l : Log} {w lh x : ℚ} {t : List Nat} :
    lineAndBreak base (l.later k) w lh x t = (lineAndBreak base l w lh x t).map (Log.later k) := acts_later _

theorem multiCellLoop_later {r : Units.Rect} {lh x : ℚ} (t : List Nat) {l : Log} {line : List Nat} {total : ℚ} :
    multiCellLoop base r lh x (l.later k) line total t = (multiCellLoop base r lh x l line total t).map (Log.later k) := by
  induction t generalizing l line total with
  | nil => rfl
  | cons v rest ih =>
    unfold multiCellLoop
    split
    · rfl
    rw [measure_later]
    cases l.measure base line with
    | none => rfl
    | some p =>
      simp only [Option.map_some, Option.bind_some, measure_later]
      cases p.2.measure base [v] with
      | none => rfl
      | some q =>
        simp only [Option.map_some, Option.bind_some]
        by_cases hw : p.1 + q.1 > r.w
        · simp only [hw, if_true, lineAndBreak_later]
          cases lineAndBreak base q.2 r.w lh x line with
          | none => rfl
          | some l1 =>
            simp only [Option.map_some, Option.bind_some, lineAndBreak_later]
            split
            · rfl
            · exact ih
        · simp only [hw, if_false, Option.bind_some, lineAndBreak_later]
          split
          · rfl
          · exact ih

theorem multiCell_later {l : Log} {r : Units.Rect} {t : List Nat} : multiCell base (l.later k) r t = (multiCell base l r t).map (Log.later k) := by
  unfold multiCell
  rw [show (l.later k).s = l.s.later k from rfl, Typeset.measureHeight_later, Typeset.addChars_later]
  cases l.s.measureHeight base t with
  | none => rfl
  | some lh =>
    cases l.s.addChars t with
    | none => rfl
    | some p =>
      simp only [Option.bind_some, act_later]
      cases l.act base (.measure t) with
      | none => rfl
      | some l1 => exact multiCellLoop_later _

theorem fitLoop_later {r : Units.Rect} {lh : ℚ} (t : List Nat) {l : Log} {line : List Nat} {total : ℚ} :
    fitLoop base r lh (l.later k) line total t = (fitLoop base r lh l line total t).map fun p => (p.1, p.2.later k) := by
  induction t generalizing l line total with
  | nil => rfl
  | cons v rest ih =>
    unfold fitLoop
    split
    · rfl
    rw [measure_later]
    cases l.measure base line with
    | none => rfl
    | some p =>
      simp only [Option.map_some, Option.bind_some, measure_later]
      cases p.2.measure base [v] with
      | none => rfl
      | some q => exact ih

theorem isFit_later {l : Log} {r : Units.Rect} {t : List Nat} : isFit base (l.later k) r t = (isFit base l r t).map fun p => (p.1, p.2.later k) := by
  unfold isFit
  rw [show (l.later k).s = l.s.later k from rfl, Typeset.measureHeight_later, Typeset.addChars_later]
  cases l.s.measureHeight base t with
  | none => rfl
  | some lh =>
    cases l.s.addChars t with
    | none => rfl
    | some p =>
      simp only [Option.bind_some, act_later]
      cases l.act base (.measure t) with
      | none => rfl
      | some l1 => exact fitLoop_later _

theorem splitLoop_later {w sw : ℚ} {b : Content.BreakOption} {text : List Nat} (n : Nat) {l : Log} {t : Split.St} :
    splitLoop base w sw b text n (l.later k) t = (splitLoop base w sw b text n l t).map fun p => (p.1.later k, p.2) := by
  induction n generalizing l t with
  | zero => rfl
  | succ n ih =>
    unfold splitLoop
    cases text[t.i]? with
    | none => rfl
    | some r =>
      simp only [measure_later]
      cases l.measure base t.line with
      | none => rfl
      | some p =>
        simp only [Option.map_some, Option.bind_some, measure_later]
        cases p.2.measure base [r] with
        | none => rfl
        | some q =>
          simp only [Option.map_some, Option.bind_some]
          cases Split.step (pass b w sw (p.1 + q.1)) text t with
          | running t' => exact ih
          | finished ls => rfl
          | bad => rfl

theorem splitText_later {n : Nat} {l : Log} {text : List Nat} {w : ℚ} {b : Content.BreakOption} :
    splitText base n (l.later k) text w b = (splitText base n l text w b).map fun p => (p.1.later k, p.2) := by
  unfold splitText
  rw [measure_later]
  cases l.measure base b.separator with
  | none => rfl
  | some p => exact splitLoop_later n

theorem multiCellOpt_later {n : Nat} {l : Log} {r : Units.Rect} {t : List Nat} {opt : Content.CellOption} {b : Content.BreakOption} {tr : Option Doc.Tr} :
    multiCellOpt base n (l.later k) r t opt b tr = (multiCellOpt base n l r t opt b tr).map (Log.later k) := by
  unfold multiCellOpt
  rw [show (l.later k).s = l.s.later k from rfl, Typeset.measureHeight_later]
  cases l.s.measureHeight base t with
  | none => rfl
  | some lh =>
    simp only [Option.bind_some, act_later]
    cases l.act base (.measure t) with
    | none => rfl
    | some l1 =>
      simp only [Option.map_some, Option.bind_some, splitText_later]
      split
      · split <;> rfl
      · cases splitText base n l1 t r.w b with
        | none => rfl
        | some p => exact acts_later _

theorem drawCell_later {n : Nat} {t : Table.Table} {l : Log} {c : Table.Cell} : drawCell base n t (l.later k) c = (drawCell base n t l c).map (Log.later k) := by
  unfold drawCell
  rw [acts_later]
  cases l.acts base ((Table.cellCalls t c).map ofTable) with
  | none => rfl
  | some l1 => exact multiCellOpt_later

theorem drawCells_later {n : Nat} {t : Table.Table} (cs : List Table.Cell) {l : Log} :
    drawCells base n t (l.later k) cs = (drawCells base n t l cs).map (Log.later k) := by
  induction cs generalizing l with
  | nil => rfl
  | cons c cs ih =>
    unfold drawCells
    rw [drawCell_later]
    cases drawCell base n t l c with
    | none => rfl
    | some l1 => exact ih

theorem drawTable_later {n : Nat} {t : Table.Table} {l : Log} : drawTable base n (l.later k) t = (drawTable base n l t).map (Log.later k) := by
  unfold drawTable
  cases Table.cells t with
  | none => rfl
  | some cs =>
    simp only [Option.bind_some, drawCells_later]
    cases drawCells base n t l cs with
    | none => rfl
    | some l1 => exact acts_later _

theorem run_later {n : Nat} {l : Log} (b : Block) : b.run base n (l.later k) = (b.run base n l).map (Log.later k) := by
  cases b with
  | basic c =>
    simp only [Block.run]
    split
    · rfl
    · exact act_later c
  | multiCell r t => exact multiCell_later
  | ifFits r t =>
    simp only [Block.run, isFit_later]
    cases isFit base l r t with
    | none => rfl
    | some p =>
      simp only [Option.map_some, Option.bind_some, multiCell_later]
      split <;> rfl
  | multiCellOpt r t opt b tr => exact multiCellOpt_later
  | table t => exact drawTable_later

theorem blocks_later {n : Nat} (bs : List Block) {l : Log} : blocks base n (l.later k) bs = (blocks base n l bs).map (Log.later k) := by
  induction bs generalizing l with
  | nil => rfl
  | cons b bs ih =>
    simp only [blocks, run_later]
    cases b.run base n l with
    | none => rfl
    | some l1 => exact ih

theorem reset_later {l : Log} : reset base (l.later k) = (reset base l).map (Log.later k) := acts_later _

end Verif.Layout
