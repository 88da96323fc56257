import Verif.Props.ProgramExample
import Verif.Props.Typeset
/- C64 on a concrete program with a concrete font. -/
set_option maxRecDepth 10000
namespace Verif.Props
open Doc Objects ObjectValue PdfObject FileReader Viewer Typeset CmapSpec FontFile
open TTF (u16_ok u32_ok)

/-- A font file (built by `tools/ttf2.py`) with three glyphs: `A` has glyph 1, made of glyph 2, and `B` has glyph 2. -/
def faceFile : Bytes :=
  [0, 1, 0, 0, 0, 11, 0, 64, 0, 2, 0, 112, 79, 83, 47, 50, 5, 253, 4, 26, 0, 0, 0, 188,
   0, 0, 0, 90, 99, 109, 97, 112, 0, 12, 0, 117, 0, 0, 1, 24, 0, 0, 0, 44, 103, 108, 121, 102,
   0, 16, 0, 15, 0, 0, 1, 68, 0, 0, 0, 40, 104, 101, 97, 100, 98, 142, 72, 9, 0, 0, 1, 108,
   0, 0, 0, 54, 104, 104, 101, 97, 3, 34, 1, 47, 0, 0, 1, 164, 0, 0, 0, 36, 104, 109, 116, 120,
   12, 228, 0, 0, 0, 0, 1, 200, 0, 0, 0, 12, 107, 101, 114, 110, 0, 9, 255, 199, 0, 0, 1, 212,
   0, 0, 0, 24, 108, 111, 99, 97, 0, 14, 0, 26, 0, 0, 1, 236, 0, 0, 0, 8, 109, 97, 120, 112,
   0, 3, 80, 0, 0, 0, 1, 244, 0, 0, 0, 6, 110, 97, 109, 101, 0, 25, 4, 85, 0, 0, 1, 252,
   0, 0, 0, 20, 112, 111, 115, 116, 255, 150, 0, 50, 0, 0, 2, 16, 0, 0, 0, 16, 0, 2, 0, 0,
   0, 0, 0, 0, 0, 0, 0, 0, 0, 0, 0, 0, 0, 0, 0, 0, 0, 0, 0, 0, 0, 0, 0, 0,
   0, 0, 0, 0, 0, 0, 0, 0, 0, 0, 0, 0, 0, 0, 0, 0, 0, 0, 0, 0, 0, 0, 0, 0,
   0, 0, 0, 0, 0, 0, 0, 0, 0, 0, 0, 0, 0, 0, 0, 0, 2, 188, 255, 106, 0, 0, 2, 238,
   0, 180, 0, 0, 0, 0, 0, 0, 0, 0, 1, 194, 2, 138, 0, 0, 0, 0, 0, 1, 0, 3, 0, 1,
   0, 0, 0, 12, 0, 4, 0, 32, 0, 0, 0, 4, 0, 4, 0, 1, 0, 0, 0, 66, 255, 255, 0, 0,
   0, 65, 255, 255, 255, 192, 0, 1, 0, 0, 0, 0, 0, 1, 0, 0, 0, 0, 0, 1, 0, 1, 0, 0,
   255, 255, 0, 0, 0, 0, 0, 9, 0, 9, 0, 2, 0, 2, 0, 0, 0, 1, 0, 0, 0, 0, 0, 3,
   0, 3, 0, 0, 0, 1, 0, 0, 0, 1, 0, 0, 0, 0, 0, 0, 95, 15, 60, 245, 0, 0, 8, 0,
   0, 0, 0, 0, 0, 0, 0, 0, 0, 0, 0, 0, 0, 0, 0, 0, 255, 246, 255, 236, 3, 132, 3, 32,
   0, 0, 0, 8, 0, 2, 0, 0, 0, 0, 0, 0, 0, 1, 0, 0, 3, 32, 255, 56, 0, 0, 1, 244,
   0, 0, 0, 0, 0, 0, 0, 0, 0, 0, 0, 0, 0, 0, 0, 0, 0, 0, 0, 0, 0, 0, 0, 3,
   3, 232, 0, 0, 4, 76, 0, 0, 4, 176, 0, 0, 0, 0, 0, 1, 0, 0, 0, 20, 0, 1, 0, 1,
   0, 6, 0, 0, 0, 0, 0, 1, 0, 2, 255, 176, 0, 0, 0, 6, 0, 14, 0, 20, 0, 0, 80, 0,
   0, 3, 0, 0, 0, 0, 0, 1, 0, 18, 0, 3, 0, 1, 4, 9, 0, 6, 0, 2, 0, 0, 0, 70,
   0, 3, 0, 0, 255, 247, 0, 0, 255, 156, 0, 50, 0, 0, 0, 0]

def face : Face := { file := faceFile, useKerning := true }

def faceInfo : TTF.Info := (TTF.load faceFile true).toOption.getD ⟨Embed.demoParsed, (0, 0, 0, 0), [], ⟨0, 0, 0, 0, 0, 0, 0⟩, 0, 0, 0, none⟩

theorem face_load : TTF.load faceFile true = .ok faceInfo := by decide +kernel

theorem face_distinct : DistinctTags faceFile := Embed.distinctCheck_ok (by decide +kernel)

theorem face_parsed : Embed.Parsed faceFile faceInfo.font := Embed.parseFont_ok face_distinct (load_font face_load)

theorem face_wellFormed : WellFormed faceFile := Embed.wellFormed_of_check face_distinct face_parsed (by decide +kernel)

theorem face_table (tag : Bytes) (t : TTF.Table) (h : TTF.tableOf faceInfo.font.tables tag = some t) : HasTable faceFile tag t.offset t.length :=
  Embed.table_of ((face_parsed.table _ _).1 h)

theorem face_cmap_at {cm cl : Nat} (h : HasTable faceFile (lit "cmap") cm cl) : cm = 280 :=
  (Embed.HasTable_fun face_distinct h (face_table (lit "cmap") ⟨786549, 280, 44⟩ (by decide +kernel))).1

theorem face_record {eid off : Nat} (h : HasRecord faceFile 280 3 eid off) : eid = 1 ∧ off = 12 := by
  obtain ⟨n, i, h1, h2, -, h4, h5⟩ := h
  have h1 := u16_ok.2 h1
  rw [show TTF.u16 faceFile (280 + 2) = .ok 1 by decide +kernel] at h1
  cases h1
  obtain rfl : i = 0 := by omega
  have h4 := u16_ok.2 h4
  have h5 := u32_ok.2 h5
  rw [show TTF.u16 faceFile (280 + 4 + 8 * 0 + 2) = .ok 1 by decide +kernel] at h4
  rw [show TTF.u32 faceFile (280 + 4 + 8 * 0 + 4) = .ok 12 by decide +kernel] at h5
  cases h4; cases h5
  exact ⟨rfl, rfl⟩

theorem face_format4 {sc : Nat} (h : IsFormat4 faceFile (280 + 12) sc) : sc = 2 := by
  obtain ⟨-, x, hx, rfl⟩ := h
  have hx := u16_ok.2 hx
  rw [show TTF.u16 faceFile (280 + 12 + 6) = .ok 4 by decide +kernel] at hx
  cases hx; rfl

theorem face_range {i ro : Nat} (hi : i < 2) (h : RangeOffset faceFile (280 + 12) 2 i ro) : ro = 0 := by
  have h := u16_ok.2 h
  have : i = 0 ∨ i = 1 := by omega
  rcases this with rfl | rfl
  · rw [show TTF.u16 faceFile (rangeAddr (280 + 12) 2 0) = .ok 0 by decide +kernel] at h; cases h; rfl
  · rw [show TTF.u16 faceFile (rangeAddr (280 + 12) 2 1) = .ok 0 by decide +kernel] at h; cases h; rfl

theorem face_cmap : GoodCmap faceFile where
  one := by
    intro cm cl e a b hT ha hb
    rw [face_cmap_at hT] at ha hb
    rw [(face_record ha).2, (face_record hb).2]
  format4 := by
    intro cm cl off sc hT hr hf
    rw [face_cmap_at hT] at hr hf ⊢
    rw [(face_record hr).2] at hf ⊢
    rw [face_format4 hf]
    refine ⟨⟨1, by omega, u16_ok.1 (by decide +kernel)⟩, fun i hi ro hro => by rw [face_range hi hro], ?_⟩
    intro i hi s e ro len _ _ hro _ hne _
    exact absurd (face_range hi hro) hne

theorem face_gives {r g : Nat} (h : Gives faceFile r g) : g < 3 := by
  obtain ⟨cm, cl, hT, ⟨hr, off, sc, h1, h2, h3⟩ | ⟨-, off, n, h1, -⟩⟩ := h
  · rw [face_cmap_at hT] at h1 h2 h3
    rw [(face_record h1).2] at h2 h3
    rw [face_format4 h2] at h3
    obtain ⟨i, s, dl, ro, ⟨i1, ⟨en, i2, i3⟩, -⟩, k1, k2, k3, k4, k5⟩ := h3
    obtain rfl := face_range i1 k3
    rcases k5 with ⟨-, k5⟩ | ⟨k5, -⟩
    · have i2 := u16_ok.2 i2
      have k1 := u16_ok.2 k1
      have k2 := u16_ok.2 k2
      have : i = 0 ∨ i = 1 := by omega
      rcases this with rfl | rfl
      · rw [show TTF.u16 faceFile (280 + 12 + 14 + 2 * 0) = .ok 66 by decide +kernel] at i2
        rw [show TTF.u16 faceFile (280 + 12 + 16 + 2 * 2 + 2 * 0) = .ok 65 by decide +kernel] at k1
        rw [show TTF.u16 faceFile (280 + 12 + 16 + 4 * 2 + 2 * 0) = .ok 65472 by decide +kernel] at k2
        cases i2; cases k1; cases k2
        omega
      · rw [show TTF.u16 faceFile (280 + 12 + 14 + 2 * 1) = .ok 65535 by decide +kernel] at i2
        rw [show TTF.u16 faceFile (280 + 12 + 16 + 2 * 2 + 2 * 1) = .ok 65535 by decide +kernel] at k1
        rw [show TTF.u16 faceFile (280 + 12 + 16 + 4 * 2 + 2 * 1) = .ok 1 by decide +kernel] at k2
        cases i2; cases k1; cases k2
        omega
    · exact absurd rfl k5
  · rw [face_cmap_at hT] at h1
    exact absurd (face_record h1).1 (by decide)

theorem face_good : GoodFace face where
  file := face_wellFormed
  cmap := face_cmap
  em := by
    rintro u ⟨h, hl, hT, hu⟩
    rw [(Embed.HasTable_fun face_distinct hT (face_table (lit "head") ⟨1653491721, 364, 54⟩ (by decide +kernel))).1] at hu
    replace hu : TTF.u16 faceFile (364 + 18) = .ok u := u16_ok.2 hu
    rw [show TTF.u16 faceFile (364 + 18) = .ok 2048 by decide +kernel] at hu
    cases hu; decide
  glyphs := by
    intro n hn
    have : n = 3 := (Embed.numGlyphs_unique face_distinct hn face_parsed.glyphs).trans (by decide +kernel)
    subst this
    exact ⟨by omega, fun r g h => face_gives h⟩
  again := fun _ => rfl

/-- Two characters of the font, and one it does not have. -/
def typeProgram : List Typeset.Call :=
  [.addFont 1 0 face, .other (.addPage 800), .other (.setFont 1 0 10), .text [66, 90, 65]]

def typeResult : Typeset.St × List Program.Call :=
  (Typeset.steps demoEnv (Typeset.start false 10 10) typeProgram).getD (Typeset.start false 0 0, [])

theorem type_run : Typeset.steps demoEnv (Typeset.start false 10 10) typeProgram = some (typeResult.1, typeResult.2) := by
  have h : (Typeset.steps demoEnv (Typeset.start false 10 10) typeProgram).isSome = true := by decide +kernel
  obtain ⟨s, hs⟩ := Option.isSome_iff_exists.1 h
  rw [typeResult, hs]; rfl

def typeEnv : Objects.Env :=
  { sampleEnv with
    fontFile := fun i => match typeResult.1.fonts i with
      | some l => match l.subset with | .ok b => (b, b.length) | .error _ => ([], 0)
      | none => ([], 0)
    widths := fun i => match typeResult.1.fonts i with | some l => l.widths | none => []
    cmap := fun i => match typeResult.1.fonts i with | some l => TextRun.toUnicode l.map | none => []
    desc := fun i => match typeResult.1.fonts i with | some l => l.desc | none => sampleEnv.desc i
    render := Program.render (typeResult.1.env demoEnv) typeResult.2 typeResult.1.prog
    key := none
    info := none }

def typeDoc : Doc := exec typeResult.1.prog.doc [.compile]

theorem type_ok : ∀ x ∈ typeProgram, x.Ok := by
  intro x hx
  simp [typeProgram] at hx
  rcases hx with rfl | rfl | rfl | rfl <;> simp [Typeset.Call.Ok, IsScalar, face]

theorem type_fonts : ∀ i l, typeResult.1.fonts i = some l → ∃ b, l.subset = .ok b ∧ b.length < 2 ^ 32 := by
  intro i l hl
  have hb := (steps_sim typeProgram _ _ _ (inv_start demoEnv false 10 10) type_ok type_run).1.bound i l hl
  have hn : typeResult.1.prog.doc.objs.length ≤ 20 := by decide +kernel
  have hall : ∀ i < 20, (match typeResult.1.fonts i with
      | none => true
      | some l => match l.subset with | .ok b => decide (b.length < 2 ^ 32) | .error _ => false) = true := by decide +kernel
  have := hall i (by omega)
  rw [hl] at this
  simp only at this
  split at this
  · next b hb => exact ⟨b, hb, by simpa using this⟩
  · simp at this

/-- The hypotheses of `text_in_callers_fonts` hold for it. -/
theorem type_printed : Printed typeEnv demoEnv false 10 10 typeProgram typeResult.1 typeResult.2 typeDoc ⟨toyMd5, none, some⟩ where
  run := type_run
  render := rfl
  doc := rfl
  fonts := by
    intro i l hl
    obtain ⟨b, hb, hlt⟩ := type_fonts i l hl
    refine ⟨b, hb, hlt, ?_, ?_, ?_, ?_, ?_⟩ <;> simp only [typeEnv, hl, hb]
  ok := type_ok
  faces := by
    intro f st fc hm _
    simp [typeProgram] at hm
    obtain ⟨rfl, rfl, rfl⟩ := hm
    exact ⟨face_good, by decide⟩
  templates := by
    intro sx sy tx ty name hm
    simp [typeProgram] at hm
  base := demo_twoByte
  sound := ⟨fun b => by simp [typeEnv, sampleEnv, toyMd5], fun k hk => by simp [typeEnv] at hk⟩
  names := ⟨sampleEnv_plain.family, sampleEnv_plain.csName, sampleEnv_plain.title, sampleEnv_plain.templates, sampleEnv_plain.template⟩
  info := fun i hi => by simp [typeEnv] at hi
  size := by decide +kernel
  md5 := rfl
  key := rfl
  inflate := fun z hz => by simp [typeEnv, sampleEnv] at hz

theorem face_own (r g : Nat) (hg : TTF.glyphOf faceInfo.font.cmap r = .ok g) : Gives faceFile r g := by
  rcases gives_cases face_distinct face_cmap (load_font face_load) r with ⟨g', h1, h2⟩ | ⟨h1, -⟩
  · rw [hg] at h1; cases h1; exact h2
  · rw [hg] at h1; cases h1

theorem face_none (r : Nat) (hr : TTF.glyphOf faceInfo.font.cmap r = .error .notFound) : ∀ g, ¬ Gives faceFile r g := by
  rcases gives_cases face_distinct face_cmap (load_font face_load) r with ⟨g', h1, -⟩ | ⟨-, h2⟩
  · rw [hr] at h1; cases h1
  · exact h2

theorem gives_unique {d : Bytes} (hd : DistinctTags d) (hc : GoodCmap d) {r g g' : Nat} (hr : r ≤ 0xFFFF) (h : Gives d r g) (h' : Gives d r g') :
    g = g' := by
  obtain ⟨cm, cl, hT, ⟨-, off, sc, r1, r2, r3⟩ | ⟨hlt, -⟩⟩ := h
  · obtain ⟨cm', cl', hT', ⟨-, off', sc', s1, s2, s3⟩ | ⟨hlt, -⟩⟩ := h'
    · obtain ⟨rfl, rfl⟩ := Embed.HasTable_fun hd hT hT'
      obtain rfl := hc.one _ _ _ _ _ hT r1 s1
      obtain ⟨_, x, hx, rfl⟩ := r2
      obtain ⟨_, x', hx', rfl⟩ := s2
      obtain rfl := TTF.U16_fun hx hx'
      exact maps4_unique r3 s3
    · omega
  · omega

/-- `B` and `A` have glyphs 2 and 1; the font has no glyph for `Z`, nor for a space. -/
example : (wishes 1 0 [] none typeProgram).map (fun w => (w.char, decide (w.face.file = faceFile))) = [(66, true), (90, true), (65, true)] ∧
    Gives faceFile 66 2 ∧ Gives faceFile 65 1 ∧ Stands face 90 0 :=
  ⟨by decide +kernel, face_own _ _ (by decide +kernel), face_own _ _ (by decide +kernel),
    .missing (face_none _ (by decide +kernel)) (face_none _ (by decide +kernel))⟩

/-- The same font; `[` stands for `Z`, and `A` for any other missing character. -/
def chainFace : Face := { face with subst := fun r => if r = 90 then 91 else 65 }

/-- ... a program that writes `Z` (or not), then `[`. -/
def chainProgram (first : List Nat) : List Typeset.Call :=
  [.addFont 1 0 chainFace, .other (.addPage 800), .other (.setFont 1 0 10), .text first, .text [91]]

/-- The glyph drawn for `[`. -/
def chainGlyph (first : List Nat) : Option Nat :=
  match Typeset.steps demoEnv (Typeset.start false 10 10) (chainProgram first) with
  | some (s, calls) => match calls.getLast? with
    | some (.text [r]) => ((s.env demoEnv).fonts 1).run.map.val r
    | _ => none
  | none => none

/-- **C64** fails for a substitute that has a substitute itself: `[`, which is to be drawn as `A`, glyph 1, is drawn as glyph 0 once it
has stood for a missing `Z`. -/
theorem substitute_chain_fails : Stands chainFace 91 1 ∧ ¬ Stands chainFace 91 0 ∧ chainGlyph [] = some 1 ∧ chainGlyph [90] = some 0 := by
  have h91 := face_none 91 (by decide +kernel)
  have h65 := face_own 65 1 (by decide +kernel)
  refine ⟨.substitute h91 h65, ?_, by decide +kernel, by decide +kernel⟩
  intro h
  cases h with
  | own h => exact h91 0 h
  | substitute _ h => exact absurd (gives_unique face_distinct face_cmap (show 65 ≤ 0xFFFF by decide) h h65) (by decide)
  | missing _ h => exact h 1 h65

end Verif.Props
