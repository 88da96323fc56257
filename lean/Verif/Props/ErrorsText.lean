import Verif.Props.Errors
import Verif.Props.TextTintExample
/- C86: the text of a program with calls that fail. -/
set_option maxRecDepth 10000
namespace Verif.Typeset

/-- The call changes nothing text depends on. -/
structure Skips (x : Setting) (c : Call) : Prop where
  after : x.after c = x
  ink : ∀ col, inkAfter col c = col
  blend : ∀ b, blendAfter b c = b
  texts : texts c = []
  page : startsPage c = false
  text : isText c = false
  parts : parts c = false

theorem reg_after (p : List Call) : ∀ x : Setting, (p.foldl Setting.after x).reg = p.foldl registerFont x.reg := by
  induction p with
  | nil => intro x; rfl
  | cons c p ih => intro x; rw [List.foldl_cons, List.foldl_cons, ih]; rfl

theorem fails_skips {p : List Call} {c : Call} (h : Fails p c) : Skips (setting p) c := by
  have hreg : (setting p).reg = p.foldl registerFont [] := reg_after p {}
  revert hreg
  generalize setting p = x
  intro hreg
  have skip : texts c = [] → startsPage c = false → isText c = false → parts c = false → (∀ col, inkAfter col c = col) → (∀ b, blendAfter b c = b) →
      registerFont x.reg c = x.reg → selectFont x.reg x.face c = x.face → (x.after c).size = x.size → (x.after c).spacing = x.spacing → Skips x c := by
    intro h1 h2 h3 h4 h5 h6 h7 h8 h9 h10
    refine ⟨?_, h5, h6, h1, h2, h3, h4⟩
    cases x
    simp only [Setting.after, Setting.mk.injEq] at h7 h8 h9 h10 ⊢
    exact ⟨h7, h8, h9, h10⟩
  cases c with
  | addFont f st face => exact skip rfl rfl rfl rfl (fun _ => rfl) (fun _ => rfl) (by simp only [registerFont]; rw [show accepted face = false from h]; rfl) rfl rfl rfl
  | other k =>
    cases k with
    | setFont f st size =>
      have hn : pick x.reg f st = none := by rw [hreg]; exact h
      exact skip rfl rfl rfl rfl (fun _ => rfl) (fun _ => rfl) rfl (by simp [selectFont, hn]) (by simp [Setting.after, hn]) rfl
    | setColourSpace n => exact skip rfl rfl rfl rfl (fun _ => rfl) (fun _ => rfl) rfl rfl rfl rfl
    | object op =>
      cases op with
      | addColorSpace n => exact skip rfl rfl rfl rfl (fun _ => rfl) (fun _ => rfl) rfl rfl rfl rfl
      | _ => exact h.elim
    | image img i => exact skip rfl rfl rfl rfl (fun _ => rfl) (fun _ => rfl) rfl rfl rfl rfl
    | imageOpt img i tr m => exact skip rfl rfl rfl rfl (fun _ => rfl) (fun _ => rfl) rfl rfl rfl rfl
    | _ => exact h.elim
  | _ => exact h.elim

variable {c : Call} {rest : List Call}

theorem inked_skip {k : Nat} : ∀ (p : List Call) (n : Nat) (x : Setting) (col : Option Paint.Colour), Skips (p.foldl Setting.after x) c →
    inked k n x col (p ++ c :: rest) = inked k n x col (p ++ rest)
  | [], n, x, col, h => by
    rw [List.nil_append, List.nil_append, inked, h.texts, h.page, h.ink, show x.after c = x from h.after]
    cases x.face <;> simp
  | a :: p, n, x, col, h => by
    rw [List.cons_append, List.cons_append, inked, inked, inked_skip p _ _ _ h]

theorem tinted_skip {k : Nat} {y : Setting} (h : Skips y c) : ∀ (p : List Call) (n : Nat) (x : Option (Nat × Nat)),
    tinted k n x (p ++ c :: rest) = tinted k n x (p ++ rest)
  | [], n, x => by
    rw [List.nil_append, List.nil_append, tinted, h.texts, h.page, h.blend]
    simp
  | a :: p, n, x => by
    rw [List.cons_append, List.cons_append, tinted, tinted, tinted_skip h p]

theorem parted_skip {y : Setting} (h : Skips y c) : ∀ (p : List Call) (run : Option (Option (Nat × Nat))) (x : Option (Nat × Nat)),
    Parted run x (p ++ rest) → Parted run x (p ++ c :: rest)
  | [], run, x, hp => by
    refine ⟨fun ht => absurd ht (by simp [h.text]), ?_⟩
    rw [h.blend, show runAfter run x c = run by simp [runAfter, h.parts, h.text]]
    exact hp
  | a :: p, run, x, hp => ⟨hp.1, parted_skip h p _ _ hp.2⟩

end Verif.Typeset

namespace Verif.Props
open Doc Objects ObjectValue PdfObject FileReader Viewer Typeset

/-- **C86** In the file of a program with a call that fails, every page shows exactly the text of the program without that call: the same
characters, in the fonts, sizes, spacings, colours and with the transparency they would have without it. -/
theorem failed_call_unseen {e : Objects.Env} {base : Content.Env} {prot : Bool} {ml mt : ℚ} {p rest : List Typeset.Call} {x : Typeset.Call}
    {s : Typeset.St} {calls : List Program.Call} {d : Doc} {c : Decoder} (h : Printed e base prot ml mt (p ++ x :: rest) s calls d c)
    (hf : Typeset.Fails p x) (hg : ∀ y ∈ p ++ x :: rest, NoGrey y) (hsharp : ∀ y ∈ p ++ x :: rest, ∀ t ∈ settingsOf y, t.sharp)
    (hpart : Parted none none (p ++ rest)) :
    ∃ pages, view c (file e d) = some pages ∧ pages.length = (p ++ rest).countP startsPage ∧
      ∀ (k : Nat) page o, pages[k]? = some (page, o) →
        List.Forall₂ (fun l i => LooksAs base.cfg l.look i ∧ ∃ n v g, l.look.font = some (n, v) ∧ Stands i.wish.face i.wish.char g ∧
          DrawsAs c (file e d) page (n, l.code) i.wish.face.file g) (letters {} [] .away o) (inked (k + 1) 0 {} none (p ++ rest)) ∧
        List.Forall₂ (fun l t => Tinted (file e d) page l.2 t) (tints [] [] o) (tinted (k + 1) 0 none (p ++ rest)) := by
  have hs := fails_skips hf
  obtain ⟨ps, h1, h2, h3⟩ := text_look_in_file h hg
  obtain ⟨ps', h1', -, h3'⟩ := text_tint_in_file h hsharp (parted_skip hs p none none hpart)
  obtain rfl : ps = ps' := by rw [h1] at h1'; simpa using h1'
  refine ⟨ps, h1, ?_, fun k page o hk => ⟨?_, ?_⟩⟩
  · rw [h2]; simp [hs.page]
  · rw [← inked_skip p 0 {} none hs]; exact h3 k page o hk
  · rw [← tinted_skip hs p 0 none]; exact (h3' k page o hk).2

/-! ### Cases -/

/-- A picture that cannot be decoded. -/
def broken : Doc.Img := { id := 7, parsed := none }

def item0 : Content.ImageItem :=
  { withMask := false, maskAngle := 0, imageAngle := 0, verticalFlip := false, horizontalFlip := false, index := 0, x := 0, y := 0, pageHeight := 0, rect := { w := 1, h := 1 }, crop := none, ext := [] }

def failing : List Program.Call :=
  [.addPage 800, .object (.addFont 1 0 true), .object (.addColorSpace 3), .image broken item0, .imageOpt { id := 8, parsed := some (false, false) } item0 none none]

theorem failing_runs : (Program.steps demoEnv (Program.start false 10 10) failing).isSome := by decide +kernel

/-- After it: which of these calls fail. -/
example : Program.Fails failing (.setFont 2 0 10) ∧ Program.Fails failing (.setFont 1 1 10) ∧ ¬ Program.Fails failing (.setFont 1 4 10) ∧
    Program.Fails failing (.object (.addColorSpace 3)) ∧ ¬ Program.Fails failing (.setColourSpace 3) ∧ Program.Fails failing (.setColourSpace 4) ∧
    Program.Fails failing (.imageOpt { id := 8, parsed := some (false, false) } item0 none (some (broken, item0, none))) := by
  simp [failing, Program.Fails, broken]

example : Program.Coherent (failing ++ [.image broken item0]) := by
  intro c hc c' hc' i hi j hj he
  simp [failing] at hc hc'
  rcases hc with rfl | rfl | rfl | rfl | rfl | rfl <;> rcases hc' with rfl | rfl | rfl | rfl | rfl | rfl <;> simp [Program.imagesOf] at hi hj <;> subst hi <;> subst hj <;>
    simp_all [broken]

/-- The hypotheses of `failed_call_unseen` hold for the program of `tint_printed`, whose fifth call is a SetFont that fails. -/
example : tintProgram = tintProgram.take 4 ++ .other (.setFont 9 0 20) :: tintProgram.drop 5 ∧
    Typeset.Fails (tintProgram.take 4) (.other (.setFont 9 0 20)) ∧ (∀ y ∈ tintProgram, NoGrey y) ∧ (∀ y ∈ tintProgram, ∀ t ∈ settingsOf y, t.sharp) ∧
    Parted none none (tintProgram.take 4 ++ tintProgram.drop 5) := by
  refine ⟨rfl, ?_, ?_, tint_sharp, ?_⟩
  · have h : (pick ((tintProgram.take 4).foldl registerFont []) 9 0).isNone = true := by decide +kernel
    exact Option.isNone_iff_eq_none.1 h
  · intro x hx
    simp [tintProgram] at hx
    rcases hx with rfl | rfl | rfl | rfl | rfl | rfl | rfl | rfl | rfl | rfl | rfl <;> trivial
  · simp [tintProgram, Parted, runAfter, blendAfter, tintOf, isText, boxed, parts, Doc.callSetting, Doc.Tr.wants]

end Verif.Props
