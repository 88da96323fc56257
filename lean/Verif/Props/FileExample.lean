import Verif.Props.FileSample
/- The theorems of Props/Objects.lean and Props/FilePages.lean on a concrete document. -/
set_option maxRecDepth 10000
namespace Verif.Props
open Doc Objects ObjectValue PdfObject FileReader

/-- Two pages with lines. -/
def pagesHistory : List Op := [.addPage, .draw 12 true, .addPage, .draw 13 true, .draw 14 true]

/-- The hypotheses of `file_shows_what_was_drawn` hold for the sample environment and a protected document. -/
example : Op.compile ∉ pagesHistory ∧ (∀ k, Op.setPage k ∉ pagesHistory) ∧
    (file sampleEnv (exec (start true) (pagesHistory ++ [.compile]))).length < 10 ^ 10 ∧ sampleEnv.render [] = [] := by
  refine ⟨by decide +kernel, ?_, by decide +kernel, rfl⟩
  intro k
  simp [pagesHistory]

end Verif.Props
