import Verif.Props.Balance
import Verif.Props.FileSample
import Verif.Props.PageBytes
import Verif.Props.Placing
/- The theorems about links, anchors, bookmarks and page boxes on concrete programs, and where they fail. -/
set_option maxRecDepth 10000
namespace Verif.Props
open Doc Objects ObjectValue PdfObject FileReader
open Placing (Plan Sheet Link Bookmark ShowsLink ShowsMark docSize plan toProgram Stores StoresAll plainOther)

deriving instance DecidableEq for Objects.Box

/-- `Stores`, as a check. -/
def storesB (e : Objects.Env) (ce : Content.Env) (size : Units.Rect) (s : Program.St) : Placing.Call → Bool
  | .other _ => true
  | .addPage none _ => e.pageSize s.doc.objs.length = none ∧ e.trimBox s.doc.objs.length = none
  | .addPage (some r) trim => e.pageSize s.doc.objs.length = some ((Placing.optSize ce r).w, (Placing.optSize ce r).h) ∧
      e.trimBox s.doc.objs.length = (trim.map (·.points ce.cfg.unit)).filter Placing.boxSet
  | .externalLink url x y w h => e.rect s.doc.objs.length = Placing.linkBox ce size x y w h ∧ e.url s.doc.objs.length = url
  | .internalLink _ x y w h => e.rect s.doc.objs.length = Placing.linkBox ce size x y w h
  | .setAnchor _ => e.anchorY s.next = Placing.anchorHeight ce size s
  | .addOutline title => e.title s.next = title ∧ e.outlineY s.doc.objs.length = 0
  | .addOutlineWithPosition title => e.title s.next = title ∧ e.outlineY s.doc.objs.length = Placing.outlineHeight ce size s

def storesAllB (e : Objects.Env) (ce : Content.Env) (size : Units.Rect) : Program.St → List Placing.Call → Bool
  | _, [] => true
  | s, c :: rest => storesB e ce size s c &&
    match Program.step ce s (Placing.toCall ce size s.next c) with
    | some s' => storesAllB e ce size s' rest
    | none => true

theorem storesAll_of {e : Objects.Env} {ce : Content.Env} {size : Units.Rect} : ∀ (prog : List Placing.Call) (s : Program.St),
    storesAllB e ce size s prog = true → StoresAll e ce size s prog
  | [], _, _ => trivial
  | c :: prog, s, h => by
    simp only [storesAllB, Bool.and_eq_true] at h
    refine ⟨?_, ?_⟩
    · have h1 := h.1
      cases c with
      | addPage sz tr => cases sz <;> simpa [storesB, Stores] using h1
      | other k => trivial
      | _ => simpa [storesB, Stores] using h1
    · have h2 := h.2
      cases hs : Program.step ce s (Placing.toCall ce size s.next c) with
      | none => simp only
      | some s' => rw [hs] at h2; exact storesAll_of prog s' h2

/-- The environment of an example: pages are 100 by 50 points. -/
def placeEnv (rect : Nat → Box) (pageSize : Nat → Option (ℚ × ℚ)) (trim : Nat → Option Box) (anchorY outlineY : ℚ)
    (prog : List Placing.Call) : Env :=
  { sampleEnv with
    size := (100, 50)
    rect := rect
    pageSize := pageSize
    trimBox := trim
    url := fun _ => lit "u"
    anchorY := fun _ => anchorY
    outlineY := fun _ => outlineY
    title := fun _ => [66]
    render := Program.render demoEnv (toProgram demoEnv { w := 100, h := 50 } 1 prog)
      ((Program.steps demoEnv (Program.start false 10 10) (toProgram demoEnv { w := 100, h := 50 } 1 prog)).getD (Program.start false 0 0))
    key := none
    info := none }

abbrev placeDoc (prog : List Placing.Call) : Doc :=
  exec (start false) (Program.docOps 1 (toProgram demoEnv { w := 100, h := 50 } 1 prog) ++ [.compile])

abbrev placeState (prog : List Placing.Call) : Program.St :=
  (Program.steps demoEnv (Program.start false 10 10) (toProgram demoEnv { w := 100, h := 50 } 1 prog)).getD (Program.start false 0 0)

/-- Programs without other calls. -/
def onlyPlaces (prog : List Placing.Call) : Bool := prog.all fun | .other _ => false | _ => true

theorem placed_example (rect : Nat → Box) (pageSize : Nat → Option (ℚ × ℚ)) (trim : Nat → Option Box) (anchorY outlineY : ℚ) (prog : List Placing.Call)
    (h1 : (Program.steps demoEnv (Program.start false 10 10) (toProgram demoEnv { w := 100, h := 50 } 1 prog)).isSome = true)
    (h2 : storesAllB (placeEnv rect pageSize trim anchorY outlineY prog) demoEnv { w := 100, h := 50 } (Program.start false 10 10) prog = true)
    (h3 : (file (placeEnv rect pageSize trim anchorY outlineY prog) (placeDoc prog)).length < 10 ^ 10) (h4 : onlyPlaces prog = true) :
    Placed (placeEnv rect pageSize trim anchorY outlineY prog) demoEnv { w := 100, h := 50 } false 10 10 prog (placeState prog) (placeDoc prog)
      ⟨toyMd5, none, some⟩ where
  out :=
    { run := by
        obtain ⟨s, hs⟩ := Option.isSome_iff_exists.1 h1
        rw [placeState, hs]; rfl
      render := rfl
      doc := rfl
      sound := ⟨fun b => by simp [placeEnv, sampleEnv, toyMd5], fun k hk => by simp [placeEnv] at hk⟩
      names := ⟨sampleEnv_plain.family, sampleEnv_plain.csName, fun k => by show ∀ r ∈ [66], r < 65536; decide, sampleEnv_plain.templates, sampleEnv_plain.template⟩
      info := fun i hi => by simp [placeEnv] at hi
      size := h3
      md5 := rfl
      key := rfl
      inflate := fun z hz => by simp [placeEnv, sampleEnv] at hz
      glyphs := demo_twoByte
      templates := by
        intro sx sy tx ty name h
        have : ∀ (l : List Placing.Call) (n : Nat), onlyPlaces l = true →
            Program.Call.plain (.template sx sy tx ty name) ∉ toProgram demoEnv { w := 100, h := 50 } n l := by
          intro l
          induction l with
          | nil => intro n _; simp [toProgram]
          | cons c l ih =>
            intro n hl
            simp only [onlyPlaces, List.all_cons, Bool.and_eq_true] at hl
            simp only [toProgram, List.mem_cons, not_or]
            refine ⟨?_, ih _ hl.2⟩
            cases c with
            | other k => simp at hl
            | externalLink u x y w h => cases u <;> simp [Placing.toCall]
            | _ => simp [Placing.toCall]
        exact absurd h (this prog 1 h4) }
  stores := storesAll_of _ _ h2
  size := by show ((100 : ℚ), (50 : ℚ)) = _; decide +kernel
  others := by
    intro k hk
    have := List.all_eq_true.1 h4 _ hk
    simp at this

/-- Two pages, the second with its own size and trim box; a link to an anchor, a link to an address, a bookmark. -/
def placeProgram : List Placing.Call :=
  [.addPage none none, .setAnchor (lit "a"), .internalLink (lit "a") 1 2 3 4, .addPage (some { w := 40, h := 50 }) (some ⟨1, 2, 39, 49, ⟨0, 0⟩⟩),
   .externalLink (lit "u") 5 6 7 8, .addOutlineWithPosition [66]]

theorem place_example : Placed (placeEnv (fun i => if i = 5 then ⟨1, 48, 4, 44⟩ else ⟨5, 44, 12, 36⟩) (fun i => if i = 6 then some (40, 50) else none)
      (fun i => if i = 6 then some ⟨1, 2, 39, 49⟩ else none) 40 60 placeProgram)
    demoEnv { w := 100, h := 50 } false 10 10 placeProgram (placeState placeProgram) (placeDoc placeProgram) ⟨toyMd5, none, some⟩ :=
  placed_example _ _ _ _ _ _ (by decide +kernel) (by decide +kernel) (by decide +kernel) rfl

/-- The hypotheses of `links_in_file`, `bookmarks_in_file`, `page_boxes` and `drawing_height` hold for it, and this is what it asks for. -/
example : DefaultHeight (asked demoEnv { w := 100, h := 50 } false 10 10 placeProgram) (Placing.paper demoEnv { w := 100, h := 50 }).2 ∧
    ((asked demoEnv { w := 100, h := 50 } false 10 10 placeProgram).sheets.map fun t => (t.size, t.trim, t.links)) =
      [(none, none, [⟨.anchor (lit "a"), ⟨1, 2, 4, 6⟩⟩]), (some (40, 50), some ⟨1, 2, 39, 49⟩, [⟨.url (lit "u"), ⟨5, 6, 12, 14⟩⟩])] ∧
    (asked demoEnv { w := 100, h := 50 } false 10 10 placeProgram).anchors (lit "a") = some ⟨1, 10⟩ ∧
    (asked demoEnv { w := 100, h := 50 } false 10 10 placeProgram).marks = [⟨[66], 2, some (-10)⟩] ∧
    ((Canvas.blank 0).calls demoEnv (Program.requests demoEnv (Program.start false 10 10) (toProgram demoEnv { w := 100, h := 50 } 1 placeProgram))).isSome = true := by
  refine ⟨?_, by decide +kernel, by decide +kernel, by decide +kernel, by decide +kernel⟩
  have : (asked demoEnv { w := 100, h := 50 } false 10 10 placeProgram).sheets.all (fun t => t.size.all fun s => s.2 = (Placing.paper demoEnv { w := 100, h := 50 }).2) = true := by decide +kernel
  intro t ht s hs
  have := List.all_eq_true.1 this t ht
  rw [hs] at this
  simpa using this

/-! ### Pages of another height -/

/-- A page of its own height, with a link and a bookmark. -/
def lowProgram : List Placing.Call := [.addPage (some { w := 40, h := 30 }) none, .externalLink (lit "u") 5 6 7 8, .addOutlineWithPosition [66]]

theorem low_example : Placed (placeEnv (fun _ => ⟨5, 44, 12, 36⟩) (fun i => if i = 4 then some (40, 30) else none) (fun _ => none) 0 60 lowProgram)
    demoEnv { w := 100, h := 50 } false 10 10 lowProgram (placeState lowProgram) (placeDoc lowProgram) ⟨toyMd5, none, some⟩ :=
  placed_example _ _ _ _ _ _ (by decide +kernel) (by decide +kernel) (by decide +kernel) rfl

/-- **C61** A link on a page whose height is not the default height is not where it was asked for: `AddExternalLink` measures from
the upper edge of a page of the default size (gopdf.go 1706-1719). -/
theorem links_other_height_fails : ∃ e s d c, Placed e demoEnv { w := 100, h := 50 } false 10 10 lowProgram s d c ∧
    (∃ t l, (asked demoEnv { w := 100, h := 50 } false 10 10 lowProgram).sheets = [t] ∧ t.links = [l] ∧
      ∃ page n, FileReader.pages (file e d) = some [page] ∧ Placing.annots page = some [n] ∧
        ∀ refs, ¬ ShowsLink c (file e d) refs (fun n => ((asked demoEnv { w := 100, h := 50 } false 10 10 lowProgram).size demoEnv { w := 100, h := 50 } n).2)
          (asked demoEnv { w := 100, h := 50 } false 10 10 lowProgram) 1 n l) := by
  refine ⟨_, _, _, _, low_example, ?_⟩
  have hs : (asked demoEnv { w := 100, h := 50 } false 10 10 lowProgram).sheets = [⟨some (40, 30), none, [⟨.url (lit "u"), ⟨5, 6, 12, 14⟩⟩]⟩] := by decide +kernel
  refine ⟨_, _, hs, rfl, ?_⟩
  obtain ⟨refs, pages, h1, h2, h3, h4⟩ := links_by_default_height low_example
  rw [hs] at h3
  match pages, h3 with
  | [page], _ =>
    obtain ⟨ns, h5, h6⟩ := h4 0 _ page (by rw [hs]; rfl) rfl
    cases h6 with
    | cons hl hrest =>
      cases hrest
      refine ⟨page, _, h2, h5, fun refs' hshow => ?_⟩
      obtain ⟨v, data, action, uri, a1, ⟨_, _, a2⟩, -⟩ := hl
      obtain ⟨v', data', action', uri', b1, ⟨_, _, b2⟩, -⟩ := hshow
      rw [a1] at b1
      simp only [Option.some.injEq, Prod.mk.injEq] at b1
      obtain ⟨rfl, _⟩ := b1
      rw [a2] at b2
      simp only [Placing.onPaper, Placing.rounded, Option.some.injEq, Val.arr.injEq, List.cons.injEq, Val.num.injEq] at b2
      exact absurd b2.2.1 (by rw [Plan.size, hs]; decide +kernel)

/-- **C62** A bookmark on such a page leads too high: `AddOutlineWithPosition` measures from the upper edge of a page of the
default size (gopdf.go 858). -/
theorem bookmarks_other_height_fails : ∃ e s d c, Placed e demoEnv { w := 100, h := 50 } false 10 10 lowProgram s d c ∧
    ∃ v b, Placing.bookmarks (file e d) 1 = some [v] ∧ (asked demoEnv { w := 100, h := 50 } false 10 10 lowProgram).marks = [b] ∧
      ∀ refs, ¬ ShowsMark refs (fun n => ((asked demoEnv { w := 100, h := 50 } false 10 10 lowProgram).size demoEnv { w := 100, h := 50 } n).2) v b := by
  refine ⟨_, _, _, _, low_example, ?_⟩
  have hs : (asked demoEnv { w := 100, h := 50 } false 10 10 lowProgram).sheets = [⟨some (40, 30), none, [⟨.url (lit "u"), ⟨5, 6, 12, 14⟩⟩]⟩] := by decide +kernel
  have hm : (asked demoEnv { w := 100, h := 50 } false 10 10 lowProgram).marks = [⟨[66], 1, some (-10)⟩] := by decide +kernel
  obtain ⟨refs, vs, h1, h2, h3⟩ := bookmarks_by_default_height low_example 1 (by rw [hm]; exact Nat.le_refl 1)
  rw [hm] at h3
  cases h3 with
  | cons hv hrest =>
    cases hrest
    refine ⟨_, _, h2, hm, fun refs' hshow => ?_⟩
    have b := hshow.2
    rw [hv.2] at b
    simp only [Placing.rounded, Option.some.injEq, Val.arr.injEq, List.cons.injEq, Val.num.injEq] at b
    exact absurd b.2.2.2.1 (by rw [Plan.size, hs]; decide +kernel)

/-- **C63** A trim box given without a page size is not written. -/
theorem trim_without_size_fails {e : Objects.Env} {ce : Content.Env} {size : Units.Rect} {prot : Bool} {ml mt : ℚ} {prog : List Placing.Call}
    {s : Program.St} {d : Doc} {c : Decoder} (h : Placed e ce size prot ml mt prog s d c) (k : Nat) (t : Sheet)
    (ht : (asked ce size prot ml mt prog).sheets[k]? = some t) (hs : t.size = none) :
    ∃ pages page, FileReader.pages (file e d) = some pages ∧ pages[k]? = some page ∧ page.get (lit "TrimBox") = none := by
  obtain ⟨pages, h1, h2, h3⟩ := page_boxes h
  have hk : k < pages.length := by rw [h2]; exact (List.getElem?_eq_some_iff.1 ht).1
  refine ⟨pages, _, h1, List.getElem?_eq_getElem hk, ?_⟩
  rw [(h3 k t _ ht (List.getElem?_eq_getElem hk)).2, hs]
  rfl

/-- Its hypotheses hold: a page with a trim box only. -/
example : ((asked demoEnv { w := 100, h := 50 } false 10 10 [.addPage none (some ⟨1, 2, 39, 49, ⟨0, 0⟩⟩)]).sheets.map fun t => (t.size, t.trim.isSome)) =
    [(none, true)] := by decide +kernel

/-- **C63** With a custom conversion factor the page size of an option is not measured in the document's unit (gopdf.go 808
passes the unit only): the same size as default size (gopdf.go 2178) and in an option gives different pages. -/
theorem option_size_custom_unit_fails : ∃ (ce : Content.Env) (r : Units.Rect), docSize ce r ≠ Placing.optSize ce r :=
  ⟨{ demoEnv with cfg := ⟨1, 2⟩ }, { w := 100, h := 50 }, by
    intro h
    have := congrArg Units.Rect.w h
    revert this
    decide +kernel⟩

end Verif.Props
