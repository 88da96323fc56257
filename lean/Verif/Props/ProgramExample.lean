import Verif.Props.Balance
import Verif.Props.FileSample
import Verif.Props.PageBytes
import Verif.Props.ProgramText
/- The theorems about programs on a concrete program. -/
set_option maxRecDepth 10000
namespace Verif.Props
open Doc Objects ObjectValue PdfObject FileReader Viewer

/-- The font of the example: `A` is glyph 1 and `B` glyph 2. -/
def smallSource : TTF.CharSource := ⟨⟨⟨2, [66, 65535], [65, 65535], [65472, 1], [0, 0], []⟩, [], []⟩, none⟩

def smallMap : TTF.CharMap := (TTF.addChars smallSource TTF.CharMap.empty [66, 65]).1

def smallContent : Content.Env :=
  { demoEnv with fonts := fun _ => { demoRunFont with run := { demoRunFont.run with map := smallMap } } }

theorem small_map : MapOK smallMap := by
  refine ⟨⟨smallSource, .add [66, 65] .start⟩, ?_, ?_⟩
  · intro k hk
    have : k = 66 ∨ k = 65 := by
      have : smallMap.keys = [66, 65] := by decide +kernel
      rw [this] at hk; simpa using hk
    rcases this with rfl | rfl <;> simp [IsScalar]
  · decide +kernel

theorem MapOK.twoByte {f : Content.Font} (h : MapOK f.run.map) : Content.TwoByte f := by
  intro r g hg
  refine h.2.2 g ?_
  unfold TTF.CharMap.val at hg
  split at hg
  · simp at hg
  · exact List.mem_of_getElem? hg

/-- A page with a text. -/
def smallProgram : List Program.Call :=
  [.object (.addFont 1 0 true), .addPage 800, .setFont 1 0 10, .text [66, 65]]

def smallState : Program.St := (Program.steps smallContent (Program.start false 10 10) smallProgram).getD (Program.start false 0 0)

def smallEnv : Env :=
  { sampleEnv with
    cmap := fun _ => TextRun.toUnicode smallMap
    render := Program.render smallContent smallProgram smallState
    key := none
    info := none }

def smallDoc : Doc := exec (start false) (Program.docOps 1 smallProgram ++ [.compile])

/-- The hypotheses of `program_pages`, `program_resources` and `text_extracted` hold for it. -/
theorem small_output : Output smallEnv smallContent false 10 10 smallProgram smallState smallDoc ⟨toyMd5, none, some⟩ where
  run := by
    have h : (Program.steps smallContent (Program.start false 10 10) smallProgram).isSome = true := by decide +kernel
    obtain ⟨s, hs⟩ := Option.isSome_iff_exists.1 h
    rw [smallState, hs]; rfl
  render := rfl
  doc := rfl
  sound := ⟨fun b => by simp [smallEnv, sampleEnv, toyMd5], fun k hk => by simp [smallEnv] at hk⟩
  names := ⟨sampleEnv_plain.family, sampleEnv_plain.csName, sampleEnv_plain.title, sampleEnv_plain.templates, sampleEnv_plain.template⟩
  info := fun i hi => by simp [smallEnv] at hi
  size := by decide +kernel
  md5 := rfl
  key := rfl
  inflate := fun z hz => by simp [smallEnv, sampleEnv] at hz
  glyphs := fun _ => MapOK.twoByte small_map
  templates := fun sx sy tx ty name h => by simp [smallProgram] at h


example : (∀ f st, Program.Call.object (.addFont f st true) ∈ smallProgram → noUnderline st = st) ∧
    (∀ r ∈ smallDoc.relFonts, smallEnv.cmap r.index = TextRun.toUnicode (smallContent.fonts (r.count + 1)).run.map) ∧
    (∀ n, MapOK (smallContent.fonts n).run.map) ∧
    (Program.asked smallContent 1 0 0 (Program.start false 10 10) smallProgram).map (fun a => (a.family, a.number, a.char)) = [(1, 1, 66), (1, 1, 65)] := by
  refine ⟨?_, fun r _ => rfl, fun _ => small_map, by decide +kernel⟩
  intro f st h
  simp [smallProgram] at h
  obtain ⟨rfl, rfl⟩ := h
  decide

theorem small_glyph : ∀ k, ∀ a ∈ Program.asked smallContent k 0 0 (Program.start false 10 10) smallProgram,
    ∃ g, (smallContent.fonts a.number).run.map.val a.char = some g ∧
      ∀ r, (smallContent.fonts a.number).run.map.val r = some g → r = a.char := by
  intro k a ha
  have h := Program.asked_text (e := smallContent) k smallProgram 0 0 _ _ small_output.run
  have hc : a.char = 66 ∨ a.char = 65 := by
    have : a.char ∈ Program.textOn k 0 smallProgram := h ▸ List.mem_map.2 ⟨a, ha, rfl⟩
    simp only [smallProgram, Program.textOn, Program.written, Program.isPage, List.mem_append] at this
    simp at this
    omega
  have hm : smallMap = ⟨[(65, 1), (66, 0)], [66, 65], [2, 1]⟩ := by decide +kernel
  have val : ∀ r, smallMap.val r = if r = 65 then some 1 else if r = 66 then some 2 else none := by
    intro r
    rw [hm]
    by_cases h65 : r = 65
    · subst h65; rfl
    · by_cases h66 : r = 66
      · subst h66; rfl
      · have a65 : (65 == r) = false := by simpa using Ne.symm h65
        have a66 : (66 == r) = false := by simpa using Ne.symm h66
        simp [TTF.CharMap.val, TTF.CharMap.index, List.find?, a65, a66, h65, h66]
  show ∃ g, smallMap.val a.char = some g ∧ ∀ r, smallMap.val r = some g → r = a.char
  rcases hc with hc | hc <;> rw [hc, val]
  · refine ⟨2, rfl, fun r hr => ?_⟩
    rw [val] at hr
    split at hr
    · simp at hr
    · split at hr
      · assumption
      · simp at hr
  · refine ⟨1, rfl, fun r hr => ?_⟩
    rw [val] at hr
    split at hr
    · assumption
    · split at hr <;> simp at hr

end Verif.Props
