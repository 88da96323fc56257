import Verif.Props.Layout
import Verif.Props.TypesetExample
/- C69 on a concrete program. -/
set_option maxRecDepth 10000
namespace Verif.Props
open Doc Objects ObjectValue PdfObject FileReader Viewer Typeset CmapSpec FontFile
open Layout (Has Block Written WritesAll)

/-- The header: a font and one letter. -/
def layHeader (_ : Nat) : List Block := [.basic (.other (.setFont 1 0 10)), .basic (.text [66])]

/-- A table with a header and one row; the cells of the row have a font of their own. -/
def layTable : Table.Table :=
  { startX := 20, startY := 100, rowHeight := 20, columns := [⟨[66], 50, .left⟩], rows := [[{ content := [65] }]], maxRows := 1,
    cellStyle := { font := some 1, size := 12 } }

/-- Wrapped text: one that is cut off, one that fits, one with a newline. -/
def layProgram : List Layout.Call :=
  [.block (.basic (.addFont 1 0 face)), .addHeader layHeader, .addPage 800, .block (.multiCell { w := 9, h := 7 } [65, 66, 65]), .block (.ifFits { w := 9, h := 40 } [65, 66]),
    .block (.multiCellOpt { w := 40, h := 40 } [65, 10, 66] {} {} none),
    .block (.table layTable)]

def layResult : Layout.St := (Layout.steps demoEnv 100 (Layout.start false 10 10) layProgram).getD (Layout.start false 10 10)

theorem lay_run : Layout.steps demoEnv 100 (Layout.start false 10 10) layProgram = some layResult := by
  have h : (Layout.steps demoEnv 100 (Layout.start false 10 10) layProgram).isSome = true := by decide +kernel
  obtain ⟨s, hs⟩ := Option.isSome_iff_exists.1 h
  rw [layResult, hs]; rfl

theorem lay_calls : layResult.log.calls.flatMap texts = [66, 65, 65, 66, 65, 66, 66, 65] := by decide +kernel

/-- What it writes, plainly: the header; the text cut off after the first line; the whole text; the text without the newline; the
table. -/
def layPlain : List Typeset.Call :=
  [.addFont 1 0 face, .other (.addPage 800), .other (.setFont 1 0 10), .text [66], .text [65], .text [65, 66], .text [65, 66], .text [66],
    .other (.setFont 1 0 12), .text [65]]

theorem lay_rest : Written layHeader (fun _ => []) 0 (layProgram.drop 2) (layPlain.drop 1) := by
  have h1 : Layout.Writes (.multiCell { w := 9, h := 7 } [65, 66, 65]) [.text [65]] := .multiCell _ _ _ ⟨[66, 65], rfl⟩
  have h2 : Layout.Writes (.multiCellOpt { w := 40, h := 40 } [65, 10, 66] {} {} none) [.text [65, 66]] :=
    .multiCellOpt _ _ _ _ _ _ (.char (by decide) (.newline (.char (by decide) .nil)))
  have h3 : Layout.Writes (.table layTable) [.text [66], .other (.setFont 1 0 12), .text [65]] :=
    .table layTable [[.text [66]], [.other (.setFont 1 0 12), .text [65]]]
      (.cons ⟨[66], .char (by decide) .nil, rfl⟩ (.cons ⟨[65], .char (by decide) .nil, rfl⟩ .nil))
  exact .page (a := [.other (.setFont 1 0 10), .text [66]]) (b := [])
    ⟨[[.other (.setFont 1 0 10)], [.text [66]]], .cons (.basic _) (.cons (.basic _) .nil), rfl⟩ ⟨[], .nil, rfl⟩
    (.block h1 (.block (.fits _ _) (.block h2 (.block h3 .nil))))

theorem lay_written : Written (fun _ => []) (fun _ => []) 0 layProgram layPlain := .block (.basic _) (.header lay_rest)

/-- It is what the calls wrote, character by character. -/
example : (wishes 1 0 [] none layPlain).map (·.char) = layResult.log.calls.flatMap texts := by
  rw [lay_calls]; decide +kernel

def layEnv : Objects.Env :=
  { sampleEnv with
    fontFile := fun i => match layResult.log.s.fonts i with
      | some l => match l.subset with | .ok b => (b, b.length) | .error _ => ([], 0)
      | none => ([], 0)
    widths := fun i => match layResult.log.s.fonts i with | some l => l.widths | none => []
    cmap := fun i => match layResult.log.s.fonts i with | some l => TextRun.toUnicode l.map | none => []
    desc := fun i => match layResult.log.s.fonts i with | some l => l.desc | none => sampleEnv.desc i
    render := Program.render (layResult.log.s.env demoEnv) layResult.log.drawn layResult.log.s.prog
    key := none
    info := none }

def layDoc : Doc := exec layResult.log.s.prog.doc [.compile]

/-- The blocks of the program. -/
def layBlocks : List Block :=
  [.basic (.addFont 1 0 face), .multiCell { w := 9, h := 7 } [65, 66, 65], .ifFits { w := 9, h := 40 } [65, 66],
    .multiCellOpt { w := 40, h := 40 } [65, 10, 66] {} {} none, .table layTable, .basic (.other (.setFont 1 0 10)), .basic (.text [66])]

theorem lay_has {b : Block} (h : Has layProgram b) : b ∈ layBlocks := by
  rcases h with h | ⟨f, k, h, hb⟩
  · simp only [layProgram, List.mem_cons, Layout.Call.block.injEq, reduceCtorEq, false_or, List.not_mem_nil, or_false] at h
    rcases h with rfl | rfl | rfl | rfl | rfl <;> simp [layBlocks]
  · simp only [layProgram, List.mem_cons, Layout.Call.addHeader.injEq, reduceCtorEq, false_or, List.not_mem_nil, or_false] at h
    subst h
    simp only [layHeader, List.mem_cons, List.not_mem_nil, or_false] at hb
    rcases hb with rfl | rfl <;> simp [layBlocks]

theorem lay_face {f st : Nat} {fc : Face} (h : Has layProgram (.basic (.addFont f st fc))) : st = 0 ∧ fc = face := by
  have := lay_has h
  simp only [layBlocks, List.mem_cons, Block.basic.injEq, Call.addFont.injEq, reduceCtorEq, List.not_mem_nil, or_false] at this
  exact this.2

theorem lay_texts {b : Block} (h : Has layProgram b) : ∀ t ∈ b.texts, ∀ r ∈ t, IsScalar r := by
  have := lay_has h
  simp only [layBlocks, List.mem_cons, List.not_mem_nil, or_false] at this
  rcases this with rfl | rfl | rfl | rfl | rfl | rfl | rfl <;> simp [Block.texts, IsScalar, layTable]

theorem lay_bound : ∀ i l, layResult.log.s.fonts i = some l → i < layResult.log.s.prog.doc.objs.length := by
  have hP : ∀ b, (Has layProgram b ∨ b = .basic (.other (.plain (.br 0)))) → Layout.Fine b := by
    rintro b (hb | rfl)
    · refine ⟨lay_texts hb, ?_, ?_⟩
      · rintro f st fc rfl r
        obtain ⟨-, rfl⟩ := lay_face hb
        simp [face, IsScalar]
      · rintro f st fc rfl _
        obtain ⟨rfl, rfl⟩ := lay_face hb
        exact ⟨face_good, by decide⟩
    · exact ⟨by simp [Block.texts], (fun _ _ _ e => by cases e), (fun _ _ _ e => by cases e)⟩
  obtain ⟨cs, ps, h1, h2, -⟩ := Layout.steps_made (P := fun b => Has layProgram b ∨ b = .basic (.other (.plain (.br 0)))) hP ⟨_, .inr rfl⟩ layProgram
    (s := Layout.start false 10 10) (Layout.reached_start (base := demoEnv)) (by simp [Layout.start]) (by simp [Layout.start]) (fun b hb => .inl hb) lay_run
  have hr := (Layout.reached_start (base := demoEnv) (prot := false) (ml := 10) (mt := 10)).made hP h1 h2
  exact (steps_sim _ _ _ _ (inv_start demoEnv false 10 10) hr.ok hr.run).1.bound

theorem lay_fonts : ∀ i l, layResult.log.s.fonts i = some l → ∃ b, l.subset = .ok b ∧ b.length < 2 ^ 32 := by
  intro i l hl
  have hb := lay_bound i l hl
  have hn : layResult.log.s.prog.doc.objs.length ≤ 20 := by decide +kernel
  have hall : ∀ i < 20, (match layResult.log.s.fonts i with
      | none => true
      | some l => match l.subset with | .ok b => decide (b.length < 2 ^ 32) | .error _ => false) = true := by decide +kernel
  have := hall i (by omega)
  rw [hl] at this
  simp only at this
  split at this
  · next b hb => exact ⟨b, hb, by simpa using this⟩
  · simp at this

/-- The hypotheses of `layout_in_file` hold for it. -/
theorem lay_laidOut : LaidOut layEnv demoEnv false 10 10 100 layProgram layResult layDoc ⟨toyMd5, none, some⟩ where
  run := lay_run
  render := rfl
  doc := rfl
  fonts := by
    intro i l hl
    obtain ⟨b, hb, hlt⟩ := lay_fonts i l hl
    refine ⟨b, hb, hlt, ?_, ?_, ?_, ?_, ?_⟩ <;> simp only [layEnv, hl, hb]
  texts := fun b hb => lay_texts hb
  subst := by
    intro f st fc hb r
    obtain ⟨-, rfl⟩ := lay_face hb
    simp [face, IsScalar]
  faces := by
    intro f st fc hb _
    obtain ⟨rfl, rfl⟩ := lay_face hb
    exact ⟨face_good, by decide⟩
  templates := by
    intro sx sy tx ty name hb
    have := lay_has hb
    simp [layBlocks] at this
  base := demo_twoByte
  sound := ⟨fun b => by simp [layEnv, sampleEnv, toyMd5], fun k hk => by simp [layEnv] at hk⟩
  names := ⟨sampleEnv_plain.family, sampleEnv_plain.csName, sampleEnv_plain.title, sampleEnv_plain.templates, sampleEnv_plain.template⟩
  info := fun i hi => by simp [layEnv] at hi
  size := by decide +kernel
  md5 := rfl
  key := rfl
  inflate := fun z hz => by simp [layEnv, sampleEnv] at hz

/-- One page. -/
example : ∃ pages, view ⟨toyMd5, none, some⟩ (file layEnv layDoc) = some pages ∧ pages.length = 1 := by
  obtain ⟨plain, pages, -, h1, h2, -⟩ := layout_in_file lay_laidOut
  exact ⟨pages, h1, by rw [h2]; decide⟩

/-- The header is on it. -/
example : ∃ pre ht a b post, layPlain = pre ++ .other (.addPage ht) :: (a ++ b ++ post) ∧ pre.countP startsPage = 0 ∧ WritesAll (layHeader 1) a := by
  obtain ⟨pre, ht, a, b, post, h1, h2, h3, -⟩ := header_on_every_page lay_rest (by simp [layProgram]) (by simp [layProgram]) (by
    rintro c (h | ⟨k, h | h⟩)
    · simp [layProgram] at h
    · simp only [layHeader, List.mem_cons, Block.basic.injEq, List.not_mem_nil, or_false] at h
      rcases h with rfl | rfl <;> rfl
    · simp at h) 0 (by decide)
  exact ⟨.addFont 1 0 face :: pre, ht, a, b, post, by rw [List.cons_append, ← h1]; rfl, by rw [List.countP_cons, h2]; rfl, h3⟩

end Verif.Props
