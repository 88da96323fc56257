import Verif.Lemmas.Restart
import Verif.Lemmas.RestartCount
import Verif.Props.DocPages
import Verif.Props.Balance
/- C78: using the object again. -/
set_option maxRecDepth 10000
namespace Verif.Props
open Restart (Lib Act)

/-- A function given to AddHeader or AddFooter that writes the same on every page, whatever the number of pages is. -/
def Plain (f : Nat → List Layout.Block) : Prop := ∀ p q, f p = f q

/-- No function in these calls depends on the number of pages. -/
def PlainFunctions (acts : List Act) : Prop :=
  ∀ f, (Act.call (.addHeader f) ∈ acts ∨ Act.call (.addFooter f) ∈ acts) → Plain f

/-- The same function, called with `k` pages more. -/
def withMore (k : Nat) (f : Nat → List Layout.Block) (p : Nat) : List Layout.Block := f (k + p)

def actWithMore (k : Nat) : Act → Act
  | .call (.addHeader f) => .call (.addHeader (withMore k f))
  | .call (.addFooter f) => .call (.addFooter (withMore k f))
  | a => a

def addsPage : Act → Bool
  | .call (.addPage _) => true
  | _ => false

/-- The same document: everything written from here is the same, and so is everything the calls do later; the counter of pages has
`k` more. -/
structure SameBut (k : Nat) (t0 t : Lib) : Prop where
  file : ∀ e base deflate, t.file e base deflate = t0.file e base deflate
  width : ∀ base u, t.lay.log.s.measureWidth base u = t0.lay.log.s.measureWidth base u
  pages : t.pages = k + t0.pages

/-- The states of a new object and of a used one. -/
structure Twin (kd kp : Nat) (t0 t : Lib) : Prop where
  log : t.lay.log = t0.lay.log.later kd
  pages : t.lay.pages = kp + t0.lay.pages
  header : t0.lay.header = withMore kp t.lay.header
  footer : t0.lay.footer = withMore kp t.lay.footer
  info : t.info = t0.info
  level : t.level = t0.level

variable {base : Content.Env} {n kd kp : Nat} {t0 t : Lib}

theorem Twin.same (h : Twin kd kp t0 t) : SameBut kd t0 t := by
  obtain ⟨h1, -, -, -, h5, h6⟩ := h
  refine ⟨fun e base deflate => ?_, fun base u => ?_, ?_⟩
  · unfold Lib.file
    rw [h1, h5, h6, show (t0.lay.log.later kd).s.prog.doc = t0.lay.log.s.prog.doc.later kd from rfl, Doc.step_later]
    rfl
  · rw [h1]; rfl
  · unfold Lib.pages
    rw [h1]
    exact Nat.add_comm _ _

/-- Related results: both panic, or both do not. -/
def Both (R : Lib → Lib → Prop) (o0 o : Option Lib) : Prop :=
  (o0 = none ∧ o = none) ∨ ∃ t0 t, o0 = some t0 ∧ o = some t ∧ R t0 t

theorem Twin.step (h : Twin kd kp t0 t) (a : Act) :
    Both (Twin kd kp) (Restart.step base n t0 (actWithMore kp a)) (Restart.step base n t a) := by
  obtain ⟨h1, h2, h3, h4, h5, h6⟩ := h
  cases a with
  | start prot ml mt =>
    refine .inr ⟨_, _, rfl, rfl, ⟨?_, h2, h3, h4, rfl, rfl⟩⟩
    simp only [Restart.layout, h1]
    rfl
  | setInfo i => exact .inr ⟨_, _, rfl, rfl, ⟨h1, h2, h3, h4, rfl, h6⟩⟩
  | compression c => exact .inr ⟨_, _, rfl, rfl, ⟨h1, h2, h3, h4, h5, by simp only [h6]⟩⟩
  | write =>
    refine .inr ⟨_, _, rfl, rfl, ⟨?_, h2, h3, h4, h5, h6⟩⟩
    simp only [Restart.written, h1]
    rw [show (t0.lay.log.later kd).s.prog.doc = t0.lay.log.s.prog.doc.later kd from rfl, Doc.step_later]
    rfl
  | call c =>
    cases c with
    | addHeader f => exact .inr ⟨_, _, rfl, rfl, ⟨h1, h2, rfl, h4, h5, h6⟩⟩
    | addFooter f => exact .inr ⟨_, _, rfl, rfl, ⟨h1, h2, h3, rfl, h5, h6⟩⟩
    | block b =>
      simp only [actWithMore, Restart.step, Layout.step, h1, Layout.run_later]
      cases b.run base n t0.lay.log with
      | none => exact .inl ⟨rfl, rfl⟩
      | some l => exact .inr ⟨_, _, rfl, rfl, ⟨rfl, h2, h3, h4, h5, h6⟩⟩
    | addPage ht =>
      have e1 : t.lay.header (t.lay.pages + 1) = t0.lay.header (t0.lay.pages + 1) := by rw [h3, h2, Nat.add_assoc]; rfl
      have e2 : t.lay.footer (t.lay.pages + 1) = t0.lay.footer (t0.lay.pages + 1) := by rw [h4, h2, Nat.add_assoc]; rfl
      simp only [actWithMore, Restart.step, Layout.step, h1, e1, e2, Layout.act_later]
      cases t0.lay.log.act base (.other (.addPage ht)) with
      | none => exact .inl ⟨rfl, rfl⟩
      | some l1 =>
        simp only [Option.map_some, Option.bind_some, Layout.blocks_later]
        cases Layout.blocks base n l1 (t0.lay.header (t0.lay.pages + 1)) with
        | none => exact .inl ⟨rfl, rfl⟩
        | some l2 =>
          simp only [Option.map_some, Option.bind_some, Layout.reset_later]
          cases Layout.reset base l2 with
          | none => exact .inl ⟨rfl, rfl⟩
          | some l3 =>
            simp only [Option.map_some, Option.bind_some, Layout.blocks_later]
            cases Layout.blocks base n l3 (t0.lay.footer (t0.lay.pages + 1)) with
            | none => exact .inl ⟨rfl, rfl⟩
            | some l4 =>
              simp only [Option.map_some, Option.bind_some, Layout.reset_later]
              cases Layout.reset base l4 with
              | none => exact .inl ⟨rfl, rfl⟩
              | some l5 => exact .inr ⟨_, _, rfl, rfl, ⟨rfl, by simp only [h2]; omega, h3, h4, h5, h6⟩⟩

theorem Twin.steps (acts : List Act) {t0 t : Lib} (h : Twin kd kp t0 t) :
    Both (Twin kd kp) (Restart.steps base n t0 (acts.map (actWithMore kp))) (Restart.steps base n t acts) := by
  induction acts generalizing t0 t with
  | nil => exact .inr ⟨_, _, rfl, rfl, h⟩
  | cons a acts ih =>
    simp only [List.map_cons, Restart.steps]
    rcases h.step (base := base) (n := n) a with ⟨e1, e2⟩ | ⟨s0, s, e1, e2, h'⟩
    · rw [e1, e2]; exact .inl ⟨rfl, rfl⟩
    · rw [e1, e2]; exact ih h'

theorem withMore_plain {f : Nat → List Layout.Block} (h : Plain f) (k : Nat) : withMore k f = f := funext fun _ => h _ _

theorem actWithMore_plain {acts : List Act} (h : PlainFunctions acts) (k : Nat) : acts.map (actWithMore k) = acts := by
  conv_rhs => rw [← List.map_id acts]
  refine List.map_congr_left fun a ha => ?_
  cases a with
  | call c =>
    cases c with
    | addHeader f => simp [actWithMore, withMore_plain (h f (.inl ha))]
    | addFooter f => simp [actWithMore, withMore_plain (h f (.inr ha))]
    | _ => rfl
  | _ => rfl

theorem Both.mono {R S : Lib → Lib → Prop} (h : ∀ a b, R a b → S a b) {o0 o : Option Lib} (hb : Both R o0 o) : Both S o0 o := by
  rcases hb with hb | ⟨a, b, h1, h2, h3⟩
  · exact .inl hb
  · exact .inr ⟨a, b, h1, h2, h a b h3⟩

/-- **C78** A used object, started again, writes what a new one does.  Whatever was done with the object before - pages added, fonts,
images, bookmarks, protection, information, compression level, files written - when Start is called, header and footer functions
are set, and then any calls are made (further Starts included), they panic exactly if they do on a new object, every measurement and
every file is the same byte for byte; only GetNumberOfPages counts on from the number it had. -/
theorem used_object_as_new (base : Content.Env) (n : Nat) (used : Lib) (prot : Bool) (ml mt : ℚ) (hd ft : Nat → List Layout.Block) (acts : List Act)
    (hh : Plain hd) (hf : Plain ft) (hp : PlainFunctions acts) :
    Both (SameBut used.pages)
      (Restart.steps base n Restart.new (.start prot ml mt :: .call (.addHeader hd) :: .call (.addFooter ft) :: acts))
      (Restart.steps base n used (.start prot ml mt :: .call (.addHeader hd) :: .call (.addFooter ft) :: acts)) := by
  have h0 : Twin used.pages used.lay.pages
      ⟨{ Restart.layout Restart.new.lay prot ml mt with header := hd, footer := ft }, none, CompressLevel.initial⟩
      ⟨{ Restart.layout used.lay prot ml mt with header := hd, footer := ft }, none, CompressLevel.initial⟩ := by
    refine ⟨?_, rfl, (withMore_plain hh _).symm, (withMore_plain hf _).symm, rfl, rfl⟩
    simp only [Restart.layout, Layout.Log.later, Typeset.St.later, Program.St.later, Doc.Doc.later, Restart.doc, Restart.new, Layout.start, Typeset.start,
      Program.start, Doc.start, Lib.pages, Nat.zero_add]
    rfl
  have := h0.steps (base := base) (n := n) acts
  rw [actWithMore_plain hp] at this
  exact this.mono fun _ _ h => h.same

/-- **C78** The header and footer functions stay: after Start they are called on the pages of the new document too, with the pages
counted over the life of the object.  The new document is the one that a new object writes if it is given these functions. -/
theorem functions_stay (base : Content.Env) (n : Nat) (used : Lib) (prot : Bool) (ml mt : ℚ) (acts : List Act) :
    Both (SameBut used.pages)
      (Restart.steps base n Restart.new (.start prot ml mt :: .call (.addHeader (withMore used.lay.pages used.lay.header)) ::
        .call (.addFooter (withMore used.lay.pages used.lay.footer)) :: acts.map (actWithMore used.lay.pages)))
      (Restart.steps base n used (.start prot ml mt :: acts)) := by
  have h0 : Twin used.pages used.lay.pages
      ⟨{ Restart.layout Restart.new.lay prot ml mt with header := withMore used.lay.pages used.lay.header, footer := withMore used.lay.pages used.lay.footer },
        none, CompressLevel.initial⟩
      ⟨Restart.layout used.lay prot ml mt, none, CompressLevel.initial⟩ := by
    refine ⟨?_, rfl, rfl, rfl, rfl, rfl⟩
    simp only [Restart.layout, Layout.Log.later, Typeset.St.later, Program.St.later, Doc.Doc.later, Restart.doc, Restart.new, Layout.start, Typeset.start,
      Program.start, Doc.start, Lib.pages, Nat.zero_add]
    rfl
  exact (h0.steps (base := base) (n := n) acts).mono fun _ _ h => h.same

theorem step_pages {s t : Lib} {a : Act} (h : Restart.step base n s a = some t) : t.pages = s.pages + if addsPage a = true then 1 else 0 := by
  cases a with
  | start prot ml mt => cases h; rfl
  | setInfo i => cases h; rfl
  | compression c => cases h; rfl
  | write =>
    cases h
    exact Doc.step_num .compile
  | call c =>
    obtain ⟨l, h1, rfl⟩ := Option.map_eq_some_iff.1 h
    cases c with
    | addHeader f => cases h1; rfl
    | addFooter f => cases h1; rfl
    | block b =>
      obtain ⟨l, h2, rfl⟩ := Option.map_eq_some_iff.1 h1
      exact Layout.run_kept b rfl l h2
    | addPage ht =>
      simp only [Layout.step] at h1
      obtain ⟨l1, g1, h1⟩ := Option.bind_eq_some_iff.1 h1
      obtain ⟨l2, g2, h1⟩ := Option.bind_eq_some_iff.1 h1
      obtain ⟨l3, g3, h1⟩ := Option.bind_eq_some_iff.1 h1
      obtain ⟨l4, g4, h1⟩ := Option.bind_eq_some_iff.1 h1
      obtain ⟨l5, g5, rfl⟩ := Option.map_eq_some_iff.1 h1
      have e2 := Layout.blocks_kept _ (Layout.act_num g1) l2 g2
      have e3 := Layout.reset_kept e2 l3 g3
      have e4 := Layout.blocks_kept _ e3 l4 g4
      exact Layout.reset_kept e4 l5 g5

/-- **C78** GetNumberOfPages is the number of AddPage calls in the whole life of the object: nothing, not even Start, sets it back. -/
theorem pages_of_life (acts : List Act) {s t : Lib} (h : Restart.steps base n s acts = some t) : t.pages = s.pages + acts.countP addsPage := by
  induction acts generalizing s with
  | nil => cases h; rfl
  | cons a acts ih =>
    obtain ⟨u, h1, h2⟩ := Option.bind_eq_some_iff.1 h
    rw [ih h2, step_pages h1, List.countP_cons]
    omega

/-- The compression levels and the information set by the calls. -/
def levelCalls : List Act → List CompressLevel.Call := List.filterMap fun
  | .compression c => some c
  | _ => none
def infoCalls : List Act → List Info.PdfInfo := List.filterMap fun
  | .setInfo i => some i
  | _ => none

theorem settings_of (acts : List Act) (hn : ∀ p l m, Act.start p l m ∉ acts) {s t : Lib} (h : Restart.steps base n s acts = some t) :
    t.level = (levelCalls acts).foldl CompressLevel.step s.level ∧ t.info = ((infoCalls acts).getLast?).or s.info := by
  induction acts generalizing s with
  | nil => cases h; exact ⟨rfl, rfl⟩
  | cons a acts ih =>
    obtain ⟨u, h1, h2⟩ := Option.bind_eq_some_iff.1 h
    obtain ⟨i1, i2⟩ := ih (fun p l m hm => hn p l m (by simp [hm])) h2
    rw [i1, i2]
    cases a with
    | start p l m => exact absurd (by simp) (hn p l m)
    | setInfo i =>
      cases h1
      refine ⟨rfl, ?_⟩
      show (infoCalls acts).getLast?.or (some i) = ((i :: infoCalls acts).getLast?).or s.info
      cases infoCalls acts with
      | nil => rfl
      | cons x xs =>
        rw [List.getLast?_cons_cons, List.getLast?_eq_some_getLast (by simp : x :: xs ≠ [])]
        rfl
    | compression c => cases h1; exact ⟨rfl, rfl⟩
    | write => cases h1; exact ⟨rfl, rfl⟩
    | call c =>
      obtain ⟨l, -, rfl⟩ := Option.map_eq_some_iff.1 h1
      exact ⟨rfl, rfl⟩

/-- **C47** **C78** The file is written with the settings made since the last Start: the pages are compressed at the level that the calls
since then leave (Props/CompressLevel.lean), not at all if that is 0; the information is the one set last since then, none if none was. -/
theorem settings_since_start (base : Content.Env) (n : Nat) (before acts : List Act) (prot : Bool) (ml mt : ℚ)
    (hn : ∀ p l m, Act.start p l m ∉ acts) {s t : Lib} (h : Restart.steps base n s (before ++ .start prot ml mt :: acts) = some t) (e : Objects.Env)
    (deflate : Int → Bytes → Bytes) :
    ∃ e' d, t.file e base deflate = Objects.file e' d ∧ e'.info = (infoCalls acts).getLast? ∧
      (CompressLevel.after (levelCalls acts) = 0 → e'.deflate = none) ∧
      (CompressLevel.after (levelCalls acts) ≠ 0 → e'.deflate = some (deflate (CompressLevel.after (levelCalls acts)))) := by
  have hsplit : ∀ (before : List Act) (s : Lib), Restart.steps base n s (before ++ .start prot ml mt :: acts) = some t →
      ∃ u, Restart.steps base n u (.start prot ml mt :: acts) = some t := by
    intro before
    induction before with
    | nil => intro s h; exact ⟨s, h⟩
    | cons a before ih =>
      intro s h
      obtain ⟨u, h1, h2⟩ := Option.bind_eq_some_iff.1 h
      exact ih u h2
  obtain ⟨u, hu⟩ := hsplit before s h
  obtain ⟨v, h1, h2⟩ := Option.bind_eq_some_iff.1 hu
  cases h1
  obtain ⟨i1, i2⟩ := settings_of acts hn h2
  have i1 : t.level = CompressLevel.after (levelCalls acts) := i1
  refine ⟨_, _, rfl, by rw [i2]; simp, ?_, ?_⟩
  · intro h0
    simp [i1, CompressLevel.isFlate, h0]
  · intro h0
    simp [i1, CompressLevel.isFlate, h0]

/-! ### Examples -/

/-- A life: a protected document with a header, a page, information and no compression is written; the object is started again for
a document with one page. -/
def firstLife : List Act :=
  [.start true 10 10, .call (.addHeader fun _ => [.basic (.other (.plain (.setGrayFill 1)))]), .setInfo { title := [72] }, .compression .setNoCompression,
    .call (.addPage 842), .call (.block (.basic (.other (.line 1 2 3 4)))), .write]

def secondLife : List Act :=
  [.call (.addPage 842), .call (.block (.basic (.other (.line 5 6 7 8)))), .write]

example : ∃ used, Restart.steps demoEnv 5 Restart.new firstLife = some used ∧ used.pages = 1 ∧ used.info ≠ none ∧ used.level = 0 ∧
    used.lay.log.s.prog.doc.encId ≠ 0 ∧
    ∃ t, Restart.steps demoEnv 5 used (.start false 10 10 :: .call (.addHeader fun _ => []) :: .call (.addFooter fun _ => []) :: secondLife) = some t ∧
      t.pages = 2 ∧ t.info.isNone ∧ t.level = -1 ∧ t.lay.log.drawn.length = 6 := by
  refine ⟨_, rfl, rfl, by simp, rfl, Nat.succ_ne_zero _, _, rfl, rfl, rfl, rfl, rfl⟩

-- the hypotheses of `settings_since_start` are met: after the second Start neither information nor level 0 are left
example : (∀ p l m, Act.start p l m ∉ secondLife ++ [.compression (.setCompressLevel 5)]) ∧
    CompressLevel.after (levelCalls (secondLife ++ [.compression (.setCompressLevel 5)])) = 5 ∧
    (Restart.steps demoEnv 5 Restart.new (firstLife ++ .start false 10 10 :: (secondLife ++ [.compression (.setCompressLevel 5)]))).isSome := by
  refine ⟨by simp [secondLife], by decide, rfl⟩

example : Plain (fun _ => []) ∧ PlainFunctions secondLife := by
  refine ⟨fun _ _ => rfl, ?_⟩
  intro f h
  simp [secondLife] at h

/-- **C78** A header set for the first document is drawn in the second one too, unless another one is set: Start does not remove it.
What the second document draws is not what it draws on a new object. -/
theorem used_object_as_new_fails : ∃ used t0 t, Restart.steps demoEnv 5 Restart.new firstLife = some used ∧
    Restart.steps demoEnv 5 Restart.new [.start false 10 10, .call (.addPage 842)] = some t0 ∧
    Restart.steps demoEnv 5 used [.start false 10 10, .call (.addPage 842)] = some t ∧
    t0.lay.log.s.prog.content.pages = [[], []] ∧ t.lay.log.s.prog.content.pages = [[], [.gray false 1]] := by
  refine ⟨_, _, _, rfl, rfl, rfl, rfl, rfl⟩

/-- **C78** GetNumberOfPages of a second document is not the number of its pages: the document has one, GetNumberOfPages says 2. -/
theorem second_page_count_fails : ∃ t, Restart.steps demoEnv 5 Restart.new (firstLife ++ .start false 10 10 :: secondLife) = some t ∧
    t.pages = 2 ∧ ∃ kids, Doc.Doc.pageTree t.lay.log.s.prog.doc = some (kids, 1) ∧ kids.length = 1 := by
  have h : (Restart.steps demoEnv 5 Restart.new (firstLife ++ .start false 10 10 :: secondLife)).map
      (fun t => (t.pages, Doc.Doc.pageTree t.lay.log.s.prog.doc)) = some (2, some ([5], 1)) := by decide +kernel
  obtain ⟨t, h1, h2⟩ := Option.map_eq_some_iff.1 h
  simp only [Prod.mk.injEq] at h2
  exact ⟨t, h1, h2.1, _, h2.2, rfl⟩

end Verif.Props
