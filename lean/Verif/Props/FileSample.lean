import Verif.Props.FilePages
/- A concrete environment for the examples of Props/FileExample.lean and Props/FileExample2.lean. -/
set_option maxRecDepth 10000
namespace Verif.Props
open Doc Objects ObjectValue PdfObject FileReader

/-- An environment for the examples. -/
def sampleEnv : Env where
  size := (595, 842)
  pageSize := fun i => if i = 9 then some (200, 100) else none
  trimBox := fun _ => none
  family := fun _ => lit "DejaVu Sans"
  desc := fun _ => ⟨800, 700, -200, 4, (-10, -20, 1000, 900), 0, 500⟩
  widths := fun _ => [(1, 600), (2, 700)]
  cmap := fun _ => lit "cmap"
  fontFile := fun _ => (lit "zfont", 9)
  look := fun _ => ⟨2, 3, 8, .rgb, false, 3, [1, 2, 3], [], lit "pixels", lit "alpha"⟩
  bbox := fun _ => ⟨0, 0, 10, 20⟩
  rect := fun _ => ⟨10, 20, 30, 40⟩
  url := fun _ => lit "http://x/()"
  anchorY := fun n => n / 3
  csName := fun _ => lit "Spot"
  ink := fun _ => .rgb 10 20 30
  title := fun _ => [0xE01, 65]
  outlineY := fun _ => 700
  imported := fun _ => []
  templates := []
  render := fun es => es.flatMap fun x => dec x.tag ++ lit "\n"
  deflate := none
  md5 := toyMd5
  key := some [1, 2, 3, 4, 5]
  o := lit "(o"
  u := lit "u)"
  p := -44
  info := some { title := [65, 66] }

theorem sampleEnv_sound : Sound sampleEnv := by
  refine ⟨fun b => by simp [sampleEnv, toyMd5], ?_⟩
  intro k hk
  simp only [sampleEnv, Option.some.injEq] at hk
  subst hk; rfl

theorem sampleEnv_plain : PlainNames sampleEnv where
  family := fun k => by show FamilyOK (lit "DejaVu Sans"); unfold FamilyOK; decide +kernel
  csName := fun k => by show NameOK (lit "Spot"); unfold NameOK; decide +kernel
  title := fun k => by show ∀ r ∈ [0xE01, 65], r < 65536; decide
  templates := List.nodup_nil
  template := fun t ht => by simp [sampleEnv] at ht

theorem sampleEnv_info : ∀ i ∈ sampleEnv.info, InfoOK i := by
  intro i hi
  simp only [sampleEnv, Option.mem_some] at hi
  subst hi
  exact ⟨by simp, by simp, by simp, by simp, by simp, by simp⟩

end Verif.Props
