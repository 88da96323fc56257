import Verif.Props.Balance
import Verif.Props.FileSample
import Verif.Props.PageBytes
import Verif.Props.ProgramFigures
/- `program_figures` on a concrete program. -/
set_option maxRecDepth 10000
namespace Verif.Props
open Doc Objects ObjectValue PdfObject FileReader Viewer
open Program (Used MaskUse)

def somePicture (x : ℚ) : Content.ImageItem :=
  { withMask := false, maskAngle := 0, imageAngle := 0, verticalFlip := true, horizontalFlip := false, index := 0, x := x, y := 20,
    pageHeight := 0, rect := { w := 10, h := 5 }, crop := none, ext := [] }

/-- Picture 7 masked with picture 8, and a line in a spot colour, half transparent. -/
def drawProgram : List Program.Call :=
  [.object (.addColorSpace 3), .addPage 80,
   .imageOpt ⟨7, some (false, false)⟩ (somePicture 10) none (some (⟨8, some (true, false)⟩, somePicture 30, some ⟨250, false, 0⟩)),
   .setTransparency ⟨500, false, 0⟩, .setColourSpace 3, .line 0 0 10 10]

def drawState : Program.St := (Program.steps demoEnv (Program.start false 10 10) drawProgram).getD (Program.start false 0 0)

def drawDoc : Doc := exec (start false) (Program.docOps 1 drawProgram ++ [.compile])

/-- The pictures' data. -/
def drawPicture (id : Nat) : Picture := ⟨lit "pixels" ++ dec id, lit "alpha" ++ dec id⟩

def drawEnvObj : Env :=
  { sampleEnv with
    look := fun i =>
      let id := match drawDoc.objs[i]? with | some (.image id _ _ _) => id | _ => 0
      ⟨2, 3, 8, .rgb, false, 3, [1, 2, 3], [], (drawPicture id).data, (drawPicture id).alpha⟩
    render := Program.render demoEnv drawProgram drawState
    key := none
    info := none }

theorem draw_output : Output drawEnvObj demoEnv false 10 10 drawProgram drawState drawDoc ⟨toyMd5, none, some⟩ where
  run := by
    have h : (Program.steps demoEnv (Program.start false 10 10) drawProgram).isSome = true := by decide +kernel
    obtain ⟨s, hs⟩ := Option.isSome_iff_exists.1 h
    rw [drawState, hs]; rfl
  render := rfl
  doc := rfl
  sound := ⟨fun b => by simp [drawEnvObj, sampleEnv, toyMd5], fun k hk => by simp [drawEnvObj] at hk⟩
  names := ⟨sampleEnv_plain.family, sampleEnv_plain.csName, sampleEnv_plain.title, sampleEnv_plain.templates, sampleEnv_plain.template⟩
  info := fun i hi => by simp [drawEnvObj] at hi
  size := by decide +kernel
  md5 := rfl
  key := rfl
  inflate := fun z hz => by simp [drawEnvObj, sampleEnv] at hz
  glyphs := demo_twoByte
  templates := fun sx sy tx ty name h => by simp [drawProgram] at h

/-- The hypotheses of `program_figures` hold for it, and what its two figures use is the masked picture, and transparency with
the colour space. -/
example : ∃ cv, (Canvas.blank 0).calls demoEnv (Program.requests demoEnv (Program.start false 10 10) drawProgram) = some cv ∧
    (∀ i id info a g, drawDoc.objs[i]? = some (.image id info a g) →
      (drawEnvObj.look i).data = (drawPicture id).data ∧ (drawEnvObj.look i).smask = (drawPicture id).alpha) ∧
    (∀ k ∈ drawProgram, Program.Upright k) ∧ (∀ col, Program.Call.plain (.setTextColour col) ∉ drawProgram) ∧
    (∀ k ∈ drawProgram, ∀ t ∈ Program.settingsOf k, t.sharp) ∧
    (Program.used demoEnv 1 {} 0 (Program.start false 10 10) drawProgram).map (fun u => (u.picture, u.setting, u.space)) =
      [(some 7, none, none), (none, some (500, 0), some 3)] ∧
    (Program.used demoEnv 1 {} 0 (Program.start false 10 10) drawProgram).map (fun u => u.mask.map fun m => (m.picture, m.setting)) =
      [some (8, some (250, 0)), none] := by
  have h : ((Canvas.blank 0).calls demoEnv (Program.requests demoEnv (Program.start false 10 10) drawProgram)).isSome = true := by decide +kernel
  obtain ⟨cv, hcv⟩ := Option.isSome_iff_exists.1 h
  refine ⟨cv, hcv, ?_, ?_, ?_, ?_, by decide +kernel, by decide +kernel⟩
  · intro i id info a g hi
    simp [drawEnvObj, hi]
  · intro k hk
    simp only [drawProgram, List.mem_cons, List.not_mem_nil, or_false] at hk
    rcases hk with rfl | rfl | rfl | rfl | rfl | rfl <;> simp [Program.Upright, somePicture, Canvas.MaskUpright]
  · intro col; simp [drawProgram]
  · intro k hk
    simp only [drawProgram, List.mem_cons, List.not_mem_nil, or_false] at hk
    rcases hk with rfl | rfl | rfl | rfl | rfl | rfl <;> simp [Program.settingsOf, Tr.sharp]

end Verif.Props
