import Verif.Spec.Errors
import Verif.Lemmas.Doc.Errors
import Verif.Lemmas.Program.Pages
import Verif.Lemmas.Doc.Images
/- C86: which calls return errors, and what they leave. -/
set_option maxRecDepth 10000
namespace Verif.Program
open Doc

theorem docOp_addFont {n : Nat} {c : Call} {f s : Nat} {b : Bool} : docOp n c = some (some (.addFont f s b)) ↔ c = .object (.addFont f s b) := by
  constructor
  · intro h
    cases c with
    | object o =>
      simp only [docOp] at h
      split at h
      · simp only [Option.some.injEq] at h; rw [h]
      · simp at h
    | plain k =>
      simp only [docOp, Option.map_eq_some_iff] at h
      obtain ⟨b, _, b', _, h⟩ := h
      cases h
    | _ => simp [docOp] at h
  · rintro rfl; rfl

theorem docOp_addColorSpace {n : Nat} {c : Call} {m : Nat} : docOp n c = some (some (.addColorSpace m)) ↔ c = .object (.addColorSpace m) := by
  constructor
  · intro h
    cases c with
    | object o =>
      simp only [docOp] at h
      split at h
      · simp only [Option.some.injEq] at h; rw [h]
      · simp at h
    | plain k =>
      simp only [docOp, Option.map_eq_some_iff] at h
      obtain ⟨b, _, b', _, h⟩ := h
      cases h
    | _ => simp [docOp] at h
  · rintro rfl; rfl

theorem mem_docOps {op : Op} : ∀ {prog : List Call} {n : Nat}, op ∈ docOps n prog → ∃ c ∈ prog, ∃ m, docOp m c = some (some op)
  | [], _, h => by simp [docOps] at h
  | c :: prog, n, h => by
    simp only [docOps, List.mem_append] at h
    rcases h with h | h
    · refine ⟨c, by simp, n, ?_⟩
      cases hd : docOp n c with
      | none => simp [hd] at h
      | some o => cases o with
        | none => simp [hd] at h
        | some x => simp [hd] at h; rw [h]
    · obtain ⟨c, h1, h2⟩ := mem_docOps h
      exact ⟨c, List.mem_cons_of_mem _ h1, h2⟩

theorem docOps_mem {op : Op} {c : Call} (hc : ∀ m, docOp m c = some (some op)) : ∀ {prog : List Call} {n : Nat}, c ∈ prog → op ∈ docOps n prog
  | [], _, h => by simp at h
  | c' :: prog, n, h => by
    simp only [docOps, List.mem_append]
    rcases List.mem_cons.1 h with rfl | h
    · exact .inl (by simp [hc n])
    · exact .inr (docOps_mem hc h)

theorem makes_images {n : Nat} {c : Call} {op : Op} {m : ImgInfo} {id : Nat} (h : docOp n c = some (some op)) (hm : Makes op m id) :
    ∃ i ∈ imagesOf c, i.id = id ∧ i.parsed.isSome := by
  cases c with
  | object o =>
    simp only [docOp] at h
    split at h
    · next ho => simp only [Option.some.injEq] at h; subst h; cases o <;> simp [objectOp] at ho <;> exact hm.elim
    · simp at h
  | plain k =>
    simp only [docOp, Option.map_eq_some_iff] at h
    obtain ⟨b, _, b', _, rfl⟩ := h
    exact hm.elim
  | image img i =>
    simp only [docOp, Option.some.injEq] at h; subst h
    obtain ⟨h1, a, x, h2, -⟩ := hm
    exact ⟨img, by simp [imagesOf], h1, by simp [h2]⟩
  | imageOpt img i tr mask =>
    simp only [docOp, Option.some.injEq] at h; subst h
    rcases hm with ⟨h1, a, x, h2, -⟩ | ⟨mi, t, a, x, h1, h2, h3, -⟩
    · exact ⟨img, by simp [imagesOf], h1, by simp [h2]⟩
    · obtain ⟨mk, rfl, e⟩ := Option.map_eq_some_iff.1 h1
      simp only [Prod.mk.injEq] at e
      exact ⟨mi, by simp [imagesOf, e.1], h2, by simp [h3]⟩
  | _ => simp only [docOp, Option.some.injEq] at h; subst h; exact hm.elim

theorem mem_idents {d : Doc} {o : Obj} (h : o ∈ d.idents) : ∃ n x, d.objAt n = some x ∧ x.ident = o := by
  simp only [Doc.idents, List.mem_map] at h
  obtain ⟨x, hx, rfl⟩ := h
  obtain ⟨i, hi⟩ := List.mem_iff_getElem?.1 hx
  exact ⟨i + 1, x, objAt_of hi, rfl⟩

theorem start_idents (prot : Bool) : (Doc.start prot).idents = (Doc.start false).idents := by cases prot <;> rfl

end Verif.Program

namespace Verif.Props
open Doc Program

section
variable {e : Content.Env} {prot : Bool} {ml mt : ℚ} {prog : List Program.Call} {s s' : Program.St} {c : Program.Call}

/-- What is cached was decoded. -/
theorem cached_coherent (h : Program.steps e (Program.start prot ml mt) prog = some s) (hc : Coherent (prog ++ [c])) {img : Img}
    (hi : img ∈ imagesOf c) : Doc.Cached s.doc img := by
  intro i hid
  have hdoc := (Program.steps_doc prog _ s h).1
  have hb : Base s.doc := reachable_base ⟨prot, _, hdoc⟩
  obtain ⟨m, hm⟩ := hb.imgs _ _ (assoc_mem hid)
  rw [hdoc] at hm
  have := image_ids (M := fun _ id => ∃ c ∈ prog, ∃ i ∈ imagesOf c, i.id = id ∧ i.parsed.isSome) (docOps 1 prog) (Doc.start prot) (Base.start prot)
    (fun op ho m id hmk => by
      obtain ⟨c, h1, n, h2⟩ := mem_docOps ho
      exact ⟨c, h1, makes_images h2 hmk⟩)
    (by intro id m s r hx; rw [start_idents] at hx; simp [Doc.start, Doc.idents, Obj.ident] at hx) _ _ _ _ (List.mem_of_getElem? hm)
  obtain ⟨c', h1, j, h2, h3, h4⟩ := this
  rw [← hc c' (by simp [h1]) c (by simp) j h2 img hi h3]
  exact h4

/-- **C86** Which calls return an error.  After any program a call that does not panic returns an error exactly if it asks for a font
or a colour space that was not added, adds a colour space that is there, adds a font file that is not taken, or draws a picture - or
through a mask - that cannot be decoded (`Program.Fails`: in terms of the calls before alone). -/
theorem call_fails_exactly (h : Program.steps e (Program.start prot ml mt) prog = some s) (hc : Coherent (prog ++ [c]))
    (hp : (Program.step e s c).isSome) : Program.succeeds s c = false ↔ Program.Fails prog c := by
  have hdoc : s.doc = exec (Doc.start prot) (docOps 1 prog) := (Program.steps_doc prog _ s h).1
  have hr : Reachable s.doc := ⟨prot, _, hdoc⟩
  have fonts : ∀ f st, (∃ o ∈ s.doc.objs, isFont f st o = true) ↔
      ∃ st', Call.object (.addFont f st' true) ∈ prog ∧ st' = noUnderline st := by
    intro f st
    constructor
    · rintro ⟨o, ho, hf⟩
      cases o <;> simp [isFont] at hf
      next f' st' cnt cid uni =>
      obtain ⟨rfl, rfl⟩ := hf
      have hm : Obj.font f' (noUnderline st) cnt cid uni ∈ s.doc.idents := List.mem_map.2 ⟨_, ho, rfl⟩
      rw [hdoc] at hm
      have := fonts_made (P := fun f s => Call.object (.addFont f s true) ∈ prog) (docOps 1 prog) (Doc.start prot) (Base.start prot)
        (fun f s ho => by obtain ⟨c, h1, n, h2⟩ := mem_docOps ho; rw [docOp_addFont] at h2; exact h2 ▸ h1)
        (by intro f s c cid uni hx; rw [start_idents] at hx; simp [Doc.start, Doc.idents, Obj.ident] at hx) _ _ _ _ _ hm
      exact ⟨_, this, rfl⟩
    · rintro ⟨st', h1, rfl⟩
      obtain ⟨cnt, cid, uni, hm⟩ := font_kept (docOps 1 prog) (Doc.start prot) (Base.start prot) f _ (docOps_mem (fun m => docOp_addFont.2 rfl) h1)
      rw [← hdoc] at hm
      obtain ⟨o, ho, e'⟩ := List.mem_map.1 hm
      refine ⟨o, ho, ?_⟩
      cases o <;> simp [Obj.ident] at e'
      simp [isFont, e']
  have spaces : ∀ n, (∃ k cnt, s.doc.objAt k = some (.colorSpace n cnt)) ↔ Call.object (.addColorSpace n) ∈ prog := by
    intro n
    constructor
    · rintro ⟨k, cnt, hk⟩
      obtain ⟨_, _, hi⟩ := objAt_lt hk
      have hm : Obj.colorSpace n cnt ∈ s.doc.idents := List.mem_map.2 ⟨_, List.mem_of_getElem? hi, rfl⟩
      rw [hdoc] at hm
      exact spaces_made (P := fun n => Call.object (.addColorSpace n) ∈ prog) (docOps 1 prog) (Doc.start prot) (Base.start prot)
        (fun n ho => by obtain ⟨c, h1, m, h2⟩ := mem_docOps ho; rw [docOp_addColorSpace] at h2; exact h2 ▸ h1)
        (by intro n c hx; rw [start_idents] at hx; simp [Doc.start, Doc.idents, Obj.ident] at hx) _ _ hm
    · intro h1
      obtain ⟨cnt, hm⟩ := space_kept (docOps 1 prog) (Doc.start prot) (Base.start prot) n (docOps_mem (fun m => docOp_addColorSpace.2 rfl) h1)
      rw [← hdoc] at hm
      obtain ⟨k, x, hk, e'⟩ := mem_idents hm
      cases x <;> simp [Obj.ident] at e'
      obtain ⟨rfl, rfl⟩ := e'
      exact ⟨k, _, hk⟩
  have nopanic : ∀ op, docOp s.next c = some (some op) → (Doc.step s.doc op).2 ≠ .panic := by
    intro op ho hpan
    simp only [Program.step, ho] at hp
    revert hp hpan
    generalize Doc.step s.doc op = r
    obtain ⟨d, o⟩ := r
    intro hpan hp
    simp only at hpan hp
    subst hpan
    simp at hp
  have bad : ∀ op, docOp s.next c = some (some op) → (Program.succeeds s c = false ↔ (Doc.step s.doc op).2 = .err) := by
    intro op ho
    have := nopanic op ho
    simp only [Program.succeeds, ho]
    cases hx : (Doc.step s.doc op).2 <;> simp_all
  have never : ∀ op, docOp s.next c = some (some op) → (Doc.step s.doc op).2 ≠ .err → Program.succeeds s c = true := by
    intro op ho he
    cases hx : Program.succeeds s c with
    | true => rfl
    | false => exact absurd ((bad op ho).1 hx) he
  cases c with
  | object op =>
    by_cases ho : objectOp op = true
    · have hd : docOp s.next (.object op) = some (some op) := by simp [docOp, ho]
      cases op <;> simp [objectOp] at ho
      case addFont f st ok =>
        rw [bad _ hd]
        cases ok <;> simp [Doc.step, Program.Fails]
      case addColorSpace n =>
        have h1 := addColorSpace_ok_iff hr n
        have h2 := nopanic _ hd
        rw [bad _ hd]
        simp only [Program.Fails, ← spaces]
        cases hx : (Doc.step s.doc (.addColorSpace n)).2 with
        | ok => simp only [hx, true_iff] at h1; simp only [reduceCtorEq, false_iff]; rintro ⟨k, cnt, hk⟩; exact h1 k cnt hk
        | err =>
          simp only [hx, reduceCtorEq, false_iff] at h1
          simp only [true_iff]
          simpa using h1
        | panic => exact absurd hx h2
      all_goals
        rw [never _ hd (by simp only [Doc.step, Doc.addLink]; first | done | (simp; done) | (split <;> simp))]
        simp [Program.Fails]
    · simp [Program.step, docOp, ho] at hp
  | plain k =>
    simp only [Program.Fails, iff_false, Bool.not_eq_false]
    cases hk : plainCall k with
    | none => simp [Program.step, docOp, hk] at hp
    | some b => cases b with
      | none => simp [Program.succeeds, docOp, hk]
      | some b =>
        refine never (.draw s.next b) (by simp [docOp, hk]) ?_
        simp only [Doc.step]; split
        · exact appendPaged_err _ _
        · simp
  | addPage hgt => simp [Program.Fails, never _ rfl (by simp [Doc.step])]
  | setTransparency t => simp [Program.Fails, never _ rfl (by simp [Doc.step])]
  | clearTransparency => simp [Program.Fails, never _ rfl (by simp [Doc.step])]
  | text t =>
    simp only [Program.Fails, iff_false, Bool.not_eq_false]
    refine never _ rfl ?_
    simp only [Doc.step]; split
    · simp
    · exact appendPaged_err _ _
  | cell r t =>
    simp only [Program.Fails, iff_false, Bool.not_eq_false]
    refine never _ rfl ?_
    simp only [Doc.step]; split
    · simp
    · exact appendPaged_err _ _
  | cellWithOption r t opt tr =>
    simp only [Program.Fails, iff_false, Bool.not_eq_false]
    refine never _ rfl ?_
    simp only [Doc.step]; split
    · simp
    · exact appendPaged_err _ _
  | line a b c d => simp only [Program.Fails, iff_false, Bool.not_eq_false]; exact never _ rfl (appendPaged_err _ _)
  | polygon a b => simp only [Program.Fails, iff_false, Bool.not_eq_false]; exact never _ rfl (appendPaged_err _ _)
  | rectLowerOpt a b c d st tr => simp only [Program.Fails, iff_false, Bool.not_eq_false]; exact never _ rfl (appendPaged_err _ _)
  | rectUpperOpt a b c d st tr => simp only [Program.Fails, iff_false, Bool.not_eq_false]; exact never _ rfl (appendPaged_err _ _)
  | setFont f st size =>
    rw [bad _ rfl]
    have hf := fonts f st
    simp only [Program.Fails, Doc.step, Doc.setFont]
    change _ ↔ ∀ st', Call.object (.addFont f st' true) ∈ prog → st' ≠ noUnderline st
    cases hx : findFrom (isFont f st) 0 s.doc.objs with
    | none =>
      simp only [true_iff]
      intro st' h1 h2
      obtain ⟨o, ho, hfo⟩ := hf.2 ⟨st', h1, h2⟩
      rw [findFrom_none hx o ho] at hfo
      cases hfo
    | some x =>
      obtain ⟨i, o⟩ := x
      obtain ⟨j, hj, h1, h2, _⟩ := findFrom_some hx
      obtain ⟨st', g1, g2⟩ := hf.1 ⟨o, List.mem_of_getElem? h1, h2⟩
      cases o <;> simp [isFont] at h2
      simp only [reduceCtorEq, false_iff]
      intro hall
      exact hall st' g1 g2
  | setColourSpace n =>
    have h1 := (setColorSpace_ok_iff s.doc s.next n).1
    have h2 := nopanic _ rfl
    rw [bad _ rfl]
    simp only [Program.Fails, ← spaces]
    cases hx : (Doc.step s.doc (.setColorSpace s.next n)).2 with
    | ok => simp only [hx, true_iff] at h1; simp [h1]
    | err => simp only [hx, reduceCtorEq, false_iff] at h1; simp [h1]
    | panic => exact absurd hx h2
  | image img i =>
    rw [bad _ rfl]
    exact imageByHolder_err _ (cached_coherent h hc (by simp [imagesOf])) _ _
  | imageOpt img i tr mask =>
    rw [bad _ rfl]
    have key := imageWithOptions_err (d := s.doc) s.next (img := img) (cached_coherent h hc (by simp [imagesOf])) tr (mask.map fun m : Img × Content.ImageItem × Option Tr => (m.1, m.2.2))
      (nopanic _ rfl) (by
        intro m t hm
        obtain ⟨mk, rfl, e'⟩ := Option.map_eq_some_iff.1 hm
        simp only [Prod.mk.injEq] at e'
        obtain ⟨rfl, rfl⟩ := e'
        exact ⟨cached_coherent h hc (by simp [imagesOf]), fun hid => hc _ (List.mem_append_right _ (List.mem_singleton_self _)) _ (List.mem_append_right _ (List.mem_singleton_self _)) _ (by simp [imagesOf]) _ (by simp [imagesOf]) hid⟩)
    refine key.trans (or_congr Iff.rfl ?_)
    constructor
    · rintro ⟨m, t, hm, hn⟩
      obtain ⟨mk, rfl, e'⟩ := Option.map_eq_some_iff.1 hm
      simp only [Prod.mk.injEq] at e'
      exact ⟨mk, rfl, e'.1 ▸ hn⟩
    · rintro ⟨m, rfl, hn⟩
      exact ⟨_, _, rfl, hn⟩

/-- **C86** A call that returns an error draws nothing and changes no setting: everything drawn, the cursor, font, size, colours and
transparency are as before, no object but the resource dictionary changes, and the current page, the bookmarks and the anchors are the
same.  New objects are left only by a picture with options and by AddColorSpace; any other call leaves the document as it was. -/
theorem failed_call_keeps (hs : Program.step e s c = some s') (hf : Program.succeeds s c = false) :
    s'.content = s.content ∧ Quiet s.doc s'.doc ∧
    ((∀ img i tr m, c ≠ .imageOpt img i tr m) → (∀ n, c ≠ .object (.addColorSpace n)) → s'.doc = s.doc) := by
  unfold Program.succeeds at hf
  split at hf
  · next op ho =>
    simp only [Program.step, ho] at hs
    have hq := step_quiet s.doc op
    have hsame := step_err_same s.doc op
    revert hs hf hq hsame
    generalize Doc.step s.doc op = r
    obtain ⟨d, o⟩ := r
    intro hf hs hq hsame
    cases o with
    | ok => exact absurd hf (by simp)
    | panic => exact absurd hs (by simp)
    | err =>
      simp only [Option.some.injEq] at hs
      subst hs
      refine ⟨rfl, hq rfl, fun h1 h2 => hsame rfl ?_ ?_⟩
      · rintro t i r m rfl
        cases c <;> simp [docOp] at ho
        case object o => obtain ⟨ho, rfl⟩ := ho; simp [objectOp] at ho
        case imageOpt => exact h1 _ _ _ _ rfl
      · rintro n rfl
        exact h2 n (docOp_addColorSpace.1 ho)
  · simp at hf

end
end Verif.Props
