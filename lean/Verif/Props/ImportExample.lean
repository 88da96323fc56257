import Verif.Props.Import
import Verif.Props.ProgramExample
/- C76 on a concrete program. -/
set_option maxRecDepth 10000
namespace Verif.Props
open Import Doc Objects ObjectValue PdfObject FileReader Viewer

/-- A page of 200 by 100 points: a form and an object it refers to. -/
def source : Source where
  size := some (200, 100)
  fetch := fun n => ⟨[(n, lit "<</Next " ++ dec (n + 1) ++ lit " 0 R>>\n"), (n + 1, lit "[1]\n")], [(lit "/T0", n)]⟩
  name := lit "/T0"
  place := fun x y w h => (w / 200, h / 100, x, -y - h)

def importResult : Import.St × List Program.Call := (Import.steps demoEnv (Import.start false 10 10) (importPages 800 [source]).1).getD (Import.start false 0 0, [])

theorem import_run : Import.steps demoEnv (Import.start false 10 10) ([] ++ (importPages 800 [source]).1) = some (importResult.1, importResult.2) := by
  have h : (Import.steps demoEnv (Import.start false 10 10) (importPages 800 [source]).1).isSome = true := by decide +kernel
  obtain ⟨s, hs⟩ := Option.isSome_iff_exists.1 h
  rw [importResult, List.nil_append, hs]; rfl

theorem import_calls : importResult.2 = [.addPage 800, .object (.importObjects 2), .plain (.template 1 1 0 (-100) (lit "/T0"))] := by
  have h : importResult.2 = importResult.2.take 3 := by
    rw [List.take_of_length_le]; decide +kernel
  rw [h]
  have e1 : importResult.2[0]? = some (.addPage 800) := by rfl
  have e2 : importResult.2[1]? = some (.object (.importObjects 2)) := by rfl
  have e3 : ∃ a b c d : ℚ, importResult.2[2]? = some (.plain (.template a b c d (lit "/T0"))) ∧ a = 1 ∧ b = 1 ∧ c = 0 ∧ d = -100 :=
    ⟨Units.toPoints demoEnv.cfg 200 / 200, Units.toPoints demoEnv.cfg 100 / 100, Units.toPoints demoEnv.cfg 0,
      -Units.toPoints demoEnv.cfg 0 - Units.toPoints demoEnv.cfg 100, rfl, by decide +kernel, by decide +kernel, by decide +kernel, by decide +kernel⟩
  obtain ⟨a, b, c, d, e3, rfl, rfl, rfl, rfl⟩ := e3
  rw [List.take_add_one, List.take_add_one, List.take_add_one, e1, e2, e3]; rfl

def importEnv : Env :=
  { sampleEnv with
    imported := importResult.1.data
    templates := importResult.1.templates
    render := Program.render demoEnv importResult.2 importResult.1.prog
    key := none
    info := none }

def importDoc : Doc := exec (start false) (Program.docOps 1 importResult.2 ++ [.compile])

theorem import_templates : importEnv.templates = [(lit "/T0", importResult.1.templates.head!.2)] := by decide +kernel

theorem import_output : Output importEnv demoEnv false 10 10 importResult.2 importResult.1.prog importDoc ⟨toyMd5, none, some⟩ where
  run := steps_prog _ _ _ _ import_run
  render := rfl
  doc := rfl
  sound := ⟨fun b => by simp [importEnv, sampleEnv, toyMd5], fun k hk => by simp [importEnv] at hk⟩
  names := by
    refine ⟨sampleEnv_plain.family, sampleEnv_plain.csName, sampleEnv_plain.title, ?_, ?_⟩
    · rw [import_templates]; simp
    · rw [import_templates]
      intro t ht
      simp only [List.mem_singleton] at ht
      subst ht
      exact ⟨⟨lit "T0", by decide, by decide, by decide⟩, by unfold NameOK; decide⟩
  info := fun i hi => by simp [importEnv] at hi
  size := by decide +kernel
  md5 := rfl
  key := rfl
  inflate := fun z hz => by simp [importEnv, sampleEnv] at hz
  glyphs := fun n => demo_twoByte n
  templates := fun sx sy tx ty name h => by
    rw [import_calls] at h
    simp at h
    obtain ⟨-, -, -, -, rfl⟩ := h
    exact ⟨lit "T0", by decide, by decide, by decide⟩

theorem source_fits : Fits source 200 100 := ⟨by decide, by decide, fun _ _ _ _ => rfl⟩

theorem source_numbered (n : Nat) : Numbered n (source.fetch n) where
  keys := by simp [source]
  names := by simp [source]
  new := by
    refine ⟨2, fun i hi => ?_⟩
    simp only [source, List.mem_cons, Prod.mk.injEq, List.not_mem_nil, or_false]
    constructor
    · rintro ⟨b, -, ⟨rfl, -⟩ | ⟨rfl, -⟩⟩ <;> omega
    · intro h
      by_cases hn : i = n
      · exact ⟨_, by simp [lit], .inl ⟨hn, rfl⟩⟩
      · exact ⟨_, by decide, .inr ⟨by omega, rfl⟩⟩

/-- The page of the source is on the page of the file: natural size, upper left corners equal (800 - 100). -/
example : ∃ pages, view ⟨toyMd5, none, some⟩ (file importEnv importDoc) = some pages ∧ pages.length = 1 ∧ ∃ page o, pages[0]? = some (page, o) ∧
    ShowsForm (Units.toPoints demoEnv.cfg 1) 800 100 (lit "/T0") o := by
  obtain ⟨pages, h1, h2, h3⟩ := imported_pages (pre := []) (s0 := Import.start false 10 10) (calls0 := []) rfl import_run import_output rfl (by
    intro p hp W H hs
    simp only [List.mem_singleton] at hp
    subst hp
    simp only [source, Option.some.injEq, Prod.mk.injEq] at hs
    obtain ⟨rfl, rfl⟩ := hs
    exact source_fits)
  obtain ⟨W, H, page, o, e1, e2, e3⟩ := h3 0 source rfl
  simp only [source, Option.some.injEq, Prod.mk.injEq] at e1
  obtain ⟨rfl, rfl⟩ := e1
  exact ⟨pages, h1, by simpa using h2, page, o, by simpa using e2, e3⟩

/-- The objects the importer numbered 6 and 7 are objects 6 and 7 of the file, and the name denotes the first of them. -/
example : (∃ rest, PdfReader.objectBytes (file importEnv importDoc) 6 = some (lit "<</Next 7 0 R>>\n" ++ lit "endobj\n\n" ++ rest)) ∧
    (∃ rest, PdfReader.objectBytes (file importEnv importDoc) 7 = some (lit "[1]\n" ++ lit "endobj\n\n" ++ rest)) ∧
    ∀ pages, view ⟨toyMd5, none, some⟩ (file importEnv importDoc) = some pages → ∀ v ∈ pages, resource (file importEnv importDoc) v.1 "XObject" (lit "T0") = some 6 := by
  have hpre : ∃ q : Import.St × List Program.Call, Import.steps demoEnv (Import.start false 10 10) [.other (.addPage 800)] = some q ∧ q.1.prog.doc.objs.length = 5 := by
    have h : ((Import.steps demoEnv (Import.start false 10 10) [.other (.addPage 800)]).map fun q => q.1.prog.doc.objs.length) = some 5 := by decide +kernel
    simpa using h
  obtain ⟨⟨s0, c0⟩, hpre, hl⟩ := hpre
  have hd : importDoc = (Doc.step importResult.1.prog.doc .compile).1 := by
    rw [importDoc, (Program.steps_doc _ _ _ (steps_prog _ _ _ _ import_run)).1, exec_append]; rfl
  have hn := source_numbered (s0.prog.doc.objs.length + 1)
  have e1 : source.fetch 6 = ⟨[(6, lit "<</Next 7 0 R>>\n"), (7, lit "[1]\n")], [(lit "/T0", 6)]⟩ := by
    simp only [source]; congr 1
  refine ⟨?_, ?_, ?_⟩
  · refine imported_objects hpre import_run hd rfl import_output.size hn (by simp at hl; omega) (by decide) ?_
    simp only at hl
    rw [hl, e1]; simp
  · refine imported_objects hpre import_run hd rfl import_output.size hn (by simp at hl; omega) (by decide) ?_
    simp only at hl
    rw [hl, e1]; simp
  · have := imported_names (x := (lit "/T0", 6)) hpre import_run import_output rfl (by simp only at hl; rw [hl, e1]; simp) hn.names (by simp [importPages])
    exact this

end Verif.Props
