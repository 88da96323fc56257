import Verif.Props.FiguresExample
import Verif.Props.ProgramPictures
/- `program_pictures` and `program_files` on a concrete program with three PNG files, a JPEG and a GIF file. -/
set_option maxRecDepth 10000
namespace Verif.Props
open Doc Objects ObjectValue PdfObject FileReader Viewer Pictures

/-- A compression for the example: one byte is put in front. -/
def toyDeflate (x : Bytes) : Bytes := 120 :: x
def toyInflate : Bytes → Option Bytes
  | _ :: x => some x
  | [] => none

/-- RGB and alpha, 2 by 1 pixels, the row filtered with the left neighbour. -/
def pngRGBA : Png := ⟨2, 1, 8, 6, [1, 2, 3, 4], [⟨lit "IDAT", toyDeflate [1, 10, 20, 30, 255, 5, 5, 5, 129], [0, 0, 0, 0]⟩], [5, 6, 7, 8]⟩

/-- Two bits per pixel, 3 by 1 pixels, with a palette of three colours, the second of them transparent. -/
def pngPalette : Png := ⟨3, 1, 2, 3, [1, 2, 3, 4], [⟨lit "PLTE", [255, 0, 0, 0, 255, 0, 0, 0, 255], [0, 0, 0, 0]⟩, ⟨lit "tRNS", [255, 0], [0, 0, 0, 0]⟩,
  ⟨lit "IDAT", [120, 0], [0, 0, 0, 0]⟩, ⟨lit "IDAT", [0b01100000], [0, 0, 0, 0]⟩], [5, 6, 7, 8]⟩

/-- Grey and alpha, 1 by 2 pixels. -/
def pngGreyAlpha : Png := ⟨1, 2, 8, 4, [1, 2, 3, 4], [⟨lit "IDAT", toyDeflate [0, 7, 100, 2, 1, 50], [0, 0, 0, 0]⟩], [5, 6, 7, 8]⟩

theorem good_RGBA : pngRGBA.Good toyInflate where
  width := by decide
  height := by decide
  kind := by decide
  hcrc := by decide
  chunks := by
    intro c hc
    simp only [pngRGBA, List.mem_cons, List.not_mem_nil, or_false] at hc
    subst hc
    exact ⟨by decide, by decide, by decide, by decide, by decide⟩
  samples := by decide +kernel
  palette := by decide
  onetrns := by decide
  trnsGrey := by intro h; exact absurd h (by decide)
  trnsRGB := by intro h; exact absurd h (by decide)
  trnsPal := by intro h; exact absurd h (by decide)
  noAlphaKey := by intro _; decide

theorem good_palette : pngPalette.Good toyInflate where
  width := by decide
  height := by decide
  kind := by decide
  hcrc := by decide
  chunks := by
    intro c hc
    simp only [pngPalette, List.mem_cons, List.not_mem_nil, or_false] at hc
    rcases hc with rfl | rfl | rfl | rfl <;> exact ⟨by decide, by decide, by decide, by decide, by decide⟩
  samples := by decide +kernel
  palette := fun _ => ⟨⟨255, by decide, by decide, by decide⟩, by decide⟩
  onetrns := by decide
  trnsGrey := by intro h; exact absurd h (by decide)
  trnsRGB := by intro h; exact absurd h (by decide)
  trnsPal := by
    intro _ t ht
    have : pngPalette.trns = some [255, 0] := by decide
    rw [this, Option.some.injEq] at ht
    subst ht
    exact ⟨by decide, by decide, by decide⟩
  noAlphaKey := by intro h; exact absurd h (by decide)

theorem good_greyAlpha : pngGreyAlpha.Good toyInflate where
  width := by decide
  height := by decide
  kind := by decide
  hcrc := by decide
  chunks := by
    intro c hc
    simp only [pngGreyAlpha, List.mem_cons, List.not_mem_nil, or_false] at hc
    subst hc
    exact ⟨by decide, by decide, by decide, by decide, by decide⟩
  samples := by decide +kernel
  palette := by decide
  onetrns := by decide
  trnsGrey := by intro h; exact absurd h (by decide)
  trnsRGB := by intro h; exact absurd h (by decide)
  trnsPal := by intro h; exact absurd h (by decide)
  noAlphaKey := by intro _; decide

/-- The pixels: half transparent; transparent green, then blue. -/
example : pngRGBA.colour toyInflate 1 0 = some ⟨[15, 25, 35], 255⟩ ∧ pngRGBA.opacity toyInflate 1 0 = some 128 ∧
    pngPalette.colour toyInflate 0 0 = some ⟨[0, 255, 0], 255⟩ ∧ pngPalette.opacity toyInflate 0 0 = some 0 ∧
    pngPalette.colour toyInflate 1 0 = some ⟨[0, 0, 255], 255⟩ ∧ pngPalette.opacity toyInflate 1 0 = some 255 ∧
    pngGreyAlpha.opacity toyInflate 0 1 = some 150 := by decide +kernel

/-- A JPEG file in CMYK (what Go's image packages see of it: its first bytes), and a GIF file. -/
def jpegFile : Bytes := [0xff, 0xd8, 0xff, 0xe0, 1, 2, 3, 0xff, 0xd9]
def gifFile : Bytes := lit "GIF89a"

/-- The files given. -/
def givenPng : Nat → Bytes
  | 7 => pngRGBA.bytes
  | 8 => pngPalette.bytes
  | 11 => jpegFile
  | 12 => gifFile
  | _ => pngGreyAlpha.bytes

/-- Go's packages, for these files. -/
def picCodec : Codec where
  header b := match b with
    | 0xff :: 0xd8 :: _ => some ⟨.jpeg, .cmyk, 5, 4⟩
    | 0x89 :: _ => some ⟨.png, .other, 0, 0⟩
    | 71 :: _ => some ⟨.gif, .other, 0, 0⟩
    | _ => none
  convert _ := some pngPalette.bytes
  inflate := toyInflate
  deflate := toyDeflate

def pic (id : Nat) : Img := ⟨id, parsed picCodec (givenPng id)⟩

/-- Picture 7, and picture 8, and picture 10 masked with picture 9, the JPEG file and the GIF file. -/
def picProgram : List Program.Call :=
  [.addPage 80, .image (pic 7) (somePicture 10), .imageOpt (pic 8) (somePicture 30) none none,
   .imageOpt (pic 10) (somePicture 10) none (some (pic 9, somePicture 30, none)), .image (pic 11) (somePicture 10), .image (pic 12) (somePicture 10)]

def picState : Program.St := (Program.steps demoEnv (Program.start false 10 10) picProgram).getD (Program.start false 0 0)

def picDoc : Doc := exec (start false) (Program.docOps 1 picProgram ++ [.compile])

def picLook (id : Nat) : Look := match parseImg picCodec (givenPng id) with
  | some r => r.1
  | none => ⟨0, 0, 8, .gray, false, 1, [], [], [], []⟩

def picEnvObj : Env :=
  { sampleEnv with
    look := fun i => match picDoc.objs[i]? with | some (.image id _ _ _) => picLook id | _ => picLook 0
    render := Program.render demoEnv picProgram picState
    key := none
    info := none }

theorem pic_output : Output picEnvObj demoEnv false 10 10 picProgram picState picDoc ⟨toyMd5, none, toyInflate⟩ where
  run := by
    have h : (Program.steps demoEnv (Program.start false 10 10) picProgram).isSome = true := by decide +kernel
    obtain ⟨s, hs⟩ := Option.isSome_iff_exists.1 h
    rw [picState, hs]; rfl
  render := rfl
  doc := rfl
  sound := ⟨fun b => by simp [picEnvObj, sampleEnv, toyMd5], fun k hk => by simp [picEnvObj] at hk⟩
  names := ⟨sampleEnv_plain.family, sampleEnv_plain.csName, sampleEnv_plain.title, sampleEnv_plain.templates, sampleEnv_plain.template⟩
  info := fun i hi => by simp [picEnvObj] at hi
  size := by decide +kernel
  md5 := rfl
  key := rfl
  inflate := fun z hz => by simp [picEnvObj, sampleEnv] at hz
  glyphs := demo_twoByte
  templates := fun sx sy tx ty name h => by simp [picProgram] at h

/-- The hypotheses of `program_pictures` and `program_files` hold for it; pictures 7, 8, 11 and 12 are neither masks nor masked; picture 9
is only a mask; and the formats are what they should be. -/
example : ∃ cv, (Canvas.blank 0).calls demoEnv (Program.requests demoEnv (Program.start false 10 10) picProgram) = some cv ∧
    (∀ x, toyInflate (toyDeflate x) = some x) ∧ (∀ x, toyDeflate x ≠ []) ∧ Given picEnvObj picProgram picDoc picCodec givenPng ∧
    (∀ k ∈ picProgram, Program.Upright k) ∧ (∀ col, Program.Call.plain (.setTextColour col) ∉ picProgram) ∧
    (∀ k ∈ picProgram, ∀ t ∈ Program.settingsOf k, t.sharp) ∧
    (∀ id ∈ [7, 8, 11, 12], ¬ Program.AsMask picProgram id ∧ ¬ Program.DrawnMasked picProgram id) ∧
    ¬ Program.Drawn picProgram 9 ∧
    (formatIs picCodec pngRGBA.bytes .png ∧ formatIs picCodec pngPalette.bytes .png ∧ formatIs picCodec gifFile .gif ∧
      picCodec.header (givenPng 11) = some ⟨.jpeg, .cmyk, 5, 4⟩) ∧
    (Program.used demoEnv 1 {} 0 (Program.start false 10 10) picProgram).map (fun u => (u.picture, u.mask.map (·.picture))) =
      [(some 7, none), (some 8, none), (some 10, some 9), (some 11, none), (some 12, none)] := by
  have h : ((Canvas.blank 0).calls demoEnv (Program.requests demoEnv (Program.start false 10 10) picProgram)).isSome = true := by decide +kernel
  obtain ⟨cv, hcv⟩ := Option.isSome_iff_exists.1 h
  refine ⟨cv, hcv, fun _ => rfl, by simp [toyDeflate], ⟨?_, ?_⟩, ?_, ?_, ?_, ?_, ?_, ⟨⟨_, rfl, rfl⟩, ⟨_, rfl, rfl⟩, ⟨_, rfl, rfl⟩, rfl⟩, by decide +kernel⟩
  · intro k hk img hi
    simp only [picProgram, List.mem_cons, List.not_mem_nil, or_false] at hk
    rcases hk with rfl | rfl | rfl | rfl | rfl | rfl <;> simp [Program.imagesOf] at hi
    · subst hi; rfl
    · subst hi; rfl
    · rcases hi with rfl | rfl <;> rfl
    · subst hi; rfl
    · subst hi; rfl
  · intro i id info a g ho l f hp
    simp [picEnvObj, ho, picLook, hp]
  · intro k hk
    simp only [picProgram, List.mem_cons, List.not_mem_nil, or_false] at hk
    rcases hk with rfl | rfl | rfl | rfl | rfl | rfl <;> simp [Program.Upright, somePicture, Canvas.MaskUpright]
  · intro col; simp [picProgram]
  · intro k hk
    simp only [picProgram, List.mem_cons, List.not_mem_nil, or_false] at hk
    rcases hk with rfl | rfl | rfl | rfl | rfl | rfl <;> simp [Program.settingsOf]
  · intro id hid
    constructor
    · rintro ⟨img, i, tr, m, it, t, hm, rfl⟩; simp [picProgram] at hm; rw [hm.2.2.2.1] at hid; exact absurd hid (by decide)
    · rintro ⟨img, i, tr, m, hm, rfl⟩; simp [picProgram] at hm; rw [hm.1] at hid; exact absurd hid (by decide)
  · rintro ⟨img, i, hid, hm | ⟨tr, m, hm⟩⟩
    · simp [picProgram] at hm
      rcases hm with hm | hm | hm <;> rw [hm.1] at hid <;> cases hid
    · simp [picProgram] at hm
      rcases hm with hm | hm <;> rw [hm.1] at hid <;> cases hid

/-- **C68** fails for palettes with other opacities: nothing of the half transparent first entry is kept. -/
theorem palette_opacity_lost_fails : ∃ (p : Png) (info : PNG.Info), p.ct = 3 ∧ (∀ c ∈ p.chunks, GoodChunk c) ∧ (p.raster toyInflate).isSome ∧
    PNG.parsePng toyInflate toyDeflate p.bytes = .ok info ∧ info.trns = none ∧ info.smask = none ∧ p.opacity toyInflate 0 0 = some 128 := by
  refine ⟨⟨1, 1, 8, 3, [1, 2, 3, 4], [⟨lit "PLTE", [255, 0, 0], [0, 0, 0, 0]⟩, ⟨lit "tRNS", [128], [0, 0, 0, 0]⟩, ⟨lit "IDAT", [120, 0, 0], [0, 0, 0, 0]⟩], [5, 6, 7, 8]⟩,
    ⟨1, 1, 8, lit "Indexed", 1, [255, 0, 0], none, [120, 0, 0], none⟩, rfl, ?_, by decide +kernel, by decide +kernel, rfl, rfl, by decide +kernel⟩
  intro c hc
  simp only [List.mem_cons, List.not_mem_nil, or_false] at hc
  rcases hc with rfl | rfl | rfl <;> exact ⟨by decide, by decide, by decide, by decide, by decide⟩

end Verif.Props
