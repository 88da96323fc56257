import Verif.Lemmas.Program.Typeset
import Verif.Props.ProgramFigures
import Verif.Spec.Import
/- C76: importing pages. -/
set_option maxRecDepth 10000
namespace Verif.Import
open Doc (Ext Obj)

theorem value_of {objs : List (Nat × Bytes)} (hk : (objs.map (·.1)).Nodup) {i : Nat} {b : Bytes} (h : (i, b) ∈ objs) : value objs i = b := by
  have : objs.find? (fun o => o.1 = i) = some (i, b) := by
    induction objs with
    | nil => simp at h
    | cons a objs ih =>
      rw [List.map_cons, List.nodup_cons] at hk
      rcases List.mem_cons.1 h with rfl | h
      · simp
      · have : a.1 ≠ i := by
          rintro rfl
          exact hk.1 (List.mem_map.2 ⟨_, h, rfl⟩)
        rw [List.find?_cons, decide_eq_false this]
        exact ih hk.2 h
  rw [value, this]; rfl

theorem value_mem {objs : List (Nat × Bytes)} {i : Nat} (h : value objs i ≠ []) : (i, value objs i) ∈ objs := by
  unfold value at h ⊢
  rcases hf : objs.find? (fun o => o.1 = i) with _ | ⟨j, b⟩
  · rw [hf] at h; simp at h
  · have h1 := List.find?_some hf
    have h2 := List.mem_of_find?_eq_some hf
    simp only [decide_eq_true_eq] at h1
    subst h1
    rw [hf]
    exact h2

theorem newObjects_eq {n : Nat} {f : Fetched} (h : Numbered n f) :
    ∃ k, newObjects f.objs n = (List.range' n k).map (value f.objs) ∧ ∀ i b, n ≤ i → b ≠ [] → (i, b) ∈ f.objs → i < n + k := by
  obtain ⟨k, hk⟩ := h.new
  have hlen : k ≤ f.objs.length := by
    have hs : List.range' n k ⊆ f.objs.map (·.1) := by
      intro i hi
      rw [List.mem_range'_1] at hi
      obtain ⟨b, -, hb⟩ := (hk i hi.1).2 hi.2
      exact List.mem_map.2 ⟨_, hb, rfl⟩
    simpa using (List.subperm_of_subset (List.nodup_range' (step := 1)) hs).length_le
  refine ⟨k, ?_, fun i b hi hb hm => (hk i hi).1 ⟨b, hb, hm⟩⟩
  unfold newObjects
  rw [show f.objs.length = k + (f.objs.length - k) by omega, ← List.range'_append_1, List.filterMap_append]
  rw [show (List.range' (n + k) (f.objs.length - k)).filterMap (fun i => if value f.objs i = [] then none else some (value f.objs i)) = [] from ?_, List.append_nil]
  · rw [← List.filterMap_eq_map]
    refine List.filterMap_congr fun i hi => ?_
    rw [List.mem_range'_1] at hi
    obtain ⟨b, hb, hm⟩ := (hk i hi.1).2 hi.2
    rw [if_neg (by rw [value_of h.keys hm]; exact hb)]
    rfl
  · rw [List.filterMap_eq_nil_iff]
    intro i hi
    rw [List.mem_range'_1] at hi
    by_cases hv : value f.objs i = []
    · rw [if_pos hv]
    · exfalso
      have := (hk i (by omega)).1 ⟨_, hv, value_mem hv⟩
      omega

/-! ### Programs -/

theorem steps_cons {e : Content.Env} {s s' : St} {c : Call} {rest : List Call} {calls : List Program.Call}
    (h : steps e s (c :: rest) = some (s', calls)) :
    ∃ s1 k calls', step e s c = some (s1, k) ∧ steps e s1 rest = some (s', calls') ∧ calls = k :: calls' := by
  simp only [steps, Option.bind_eq_some_iff, Option.map_eq_some_iff, Prod.mk.injEq] at h
  obtain ⟨⟨s1, k⟩, h1, ⟨s2, calls'⟩, h2, rfl, rfl⟩ := h
  exact ⟨s1, k, calls', h1, h2, rfl⟩

theorem step_prog {e : Content.Env} {s s' : St} {c : Call} {k : Program.Call} (h : step e s c = some (s', k)) : Program.step e s.prog k = some s'.prog := by
  simp only [step, Option.bind_eq_some_iff, Option.map_eq_some_iff, Prod.mk.injEq] at h
  obtain ⟨r, h1, p, h2, rfl, rfl⟩ := h
  exact h2

/-- The calls are those of a program of Model/Program.lean. -/
theorem steps_prog {e : Content.Env} : ∀ (prog : List Call) (s s' : St) (calls : List Program.Call), steps e s prog = some (s', calls) →
    Program.steps e s.prog calls = some s'.prog
  | [], s, s', calls, h => by
    simp only [steps, Option.some.injEq, Prod.mk.injEq] at h
    obtain ⟨rfl, rfl⟩ := h
    rfl
  | c :: rest, s, s', calls, h => by
    obtain ⟨s1, k, calls', h1, h2, rfl⟩ := steps_cons h
    simp only [Program.steps, step_prog h1, Option.bind_some]
    exact steps_prog rest s1 s' calls' h2

theorem step_ext {e : Content.Env} {s s' : St} {c : Call} {k : Program.Call} (h : step e s c = some (s', k)) : Ext s.prog.doc s'.prog.doc := by
  have := (Program.steps_doc (e := e) [k] s.prog s'.prog (by simp [Program.steps, step_prog h])).1
  rw [this]
  exact Doc.exec_ext _ _

theorem step_data {e : Content.Env} {s s' : St} {c : Call} {k : Program.Call} (h : step e s c = some (s', k)) {i : Nat}
    (hi : i < s.prog.doc.objs.length) : s'.data i = s.data i := by
  simp only [step, Option.bind_eq_some_iff, Option.map_eq_some_iff, Prod.mk.injEq] at h
  obtain ⟨r, h1, p, h2, rfl, rfl⟩ := h
  cases c with
  | importPage p =>
    simp only [St.prepare, Option.some.injEq] at h1
    subst h1
    simp only [put]
    rw [if_neg (by omega)]
  | useTemplate p x y w h =>
    simp only [St.prepare, Option.some.injEq] at h1
    subst h1; rfl
  | other k =>
    simp only [St.prepare] at h1
    split at h1
    · simp only [Option.some.injEq] at h1; subst h1; rfl
    · cases h1

theorem ext_length {d d' : Doc.Doc} (h : Ext d d') : d.objs.length ≤ d'.objs.length := by
  have := h.length_le
  rwa [Doc.idents_len, Doc.idents_len] at this

theorem steps_keep {e : Content.Env} : ∀ (prog : List Call) (s s' : St) (calls : List Program.Call), steps e s prog = some (s', calls) →
    Ext s.prog.doc s'.prog.doc ∧ ∀ i, i < s.prog.doc.objs.length → s'.data i = s.data i
  | [], s, s', calls, h => by
    simp only [steps, Option.some.injEq, Prod.mk.injEq] at h
    obtain ⟨rfl, rfl⟩ := h
    exact ⟨Ext.refl _, fun _ _ => rfl⟩
  | c :: rest, s, s', calls, h => by
    obtain ⟨s1, k, calls', h1, h2, rfl⟩ := steps_cons h
    obtain ⟨q1, q2⟩ := steps_keep rest s1 s' calls' h2
    have hx := step_ext h1
    refine ⟨hx.trans q1, fun i hi => ?_⟩
    rw [q2 i (lt_of_lt_of_le hi (ext_length hx)), step_data h1 hi]

theorem steps_append {e : Content.Env} : ∀ (a b : List Call) (s s' : St) (calls : List Program.Call), steps e s (a ++ b) = some (s', calls) →
    ∃ s1 c1 c2, steps e s a = some (s1, c1) ∧ steps e s1 b = some (s', c2) ∧ calls = c1 ++ c2
  | [], b, s, s', calls, h => ⟨s, [], calls, rfl, h, rfl⟩
  | c :: a, b, s, s', calls, h => by
    obtain ⟨s1, k, calls', h1, h2, rfl⟩ := steps_cons h
    obtain ⟨s2, c1, c2, h3, h4, rfl⟩ := steps_append a b s1 s' calls' h2
    refine ⟨s2, k :: c1, c2, ?_, h4, rfl⟩
    simp only [steps, h1, Option.bind_some, h3, Option.map_some]

/-- The objects of one import. -/
theorem import_step {e : Content.Env} {s s' : St} {p : Source} {k : Program.Call} (h : step e s (.importPage p) = some (s', k))
    (hn : Numbered (s.prog.doc.objs.length + 1) (p.fetch (s.prog.doc.objs.length + 1))) {i : Nat} {b : Bytes}
    (hi : s.prog.doc.objs.length < i) (hb : b ≠ []) (hm : (i, b) ∈ (p.fetch (s.prog.doc.objs.length + 1)).objs) :
    s'.prog.doc.idents[i - 1]? = some .imported ∧ s'.data (i - 1) = b := by
  have hp := step_prog h
  simp only [step, St.prepare, Option.bind_some, Option.map_eq_some_iff, Prod.mk.injEq] at h
  obtain ⟨pr, h2, rfl, rfl⟩ := h
  obtain ⟨n, hnew, hlt⟩ := newObjects_eq hn
  have hi2 := hlt i b (by omega) hb hm
  rw [hnew] at h2 ⊢
  have hdoc : pr.doc = { s.prog.doc with objs := s.prog.doc.objs ++ List.replicate n .imported } := by
    simp [Program.step, Program.docOp, Program.objectOp, Doc.step, Program.contentCall] at h2
    rw [← h2]
  constructor
  · simp only [hdoc, Doc.Doc.idents, List.map_append, List.map_replicate]
    rw [List.getElem?_append_right (by simp; omega)]
    simp [List.getElem?_replicate, Obj.ident]
    omega
  · simp only [put]
    rw [if_pos (by omega), List.getElem?_map, List.getElem?_range' (by omega)]
    simp only [Option.map_some, Option.getD_some]
    rw [show s.prog.doc.objs.length + 1 + 1 * (i - 1 - s.prog.doc.objs.length) = i by omega]
    exact value_of hn.keys hm

/-! ### Names of templates -/

theorem assign_mem {t : List (Bytes × Nat)} {x y : Bytes × Nat} (h : x ∈ t) (hy : y.1 = x.1 → y.2 = x.2) : x ∈ assign t y := by
  unfold assign
  by_cases hn : y.1 = x.1
  · have : x = y := Prod.ext hn.symm (hy hn).symm
    simp [this]
  · refine List.mem_append_left _ (List.mem_filter.2 ⟨h, ?_⟩)
    simpa using fun hh => hn hh.symm

theorem foldl_keep : ∀ (l t : List (Bytes × Nat)) {x : Bytes × Nat}, x ∈ t → (∀ y ∈ l, y.1 = x.1 → y.2 = x.2) → x ∈ l.foldl assign t
  | [], _, _, h, _ => h
  | y :: l, t, x, h, hy => foldl_keep l _ (assign_mem h (hy y (by simp))) fun z hz => hy z (by simp [hz])

theorem foldl_new : ∀ (l t : List (Bytes × Nat)) {x : Bytes × Nat}, x ∈ l → (l.map (·.1)).Nodup → x ∈ l.foldl assign t
  | [], _, _, h, _ => by simp at h
  | y :: l, t, x, h, hn => by
    rw [List.map_cons, List.nodup_cons] at hn
    rcases List.mem_cons.1 h with rfl | h
    · refine foldl_keep l _ (by simp [assign]) fun z hz hzx => ?_
      exact absurd (List.mem_map.2 ⟨z, hz, hzx⟩) hn.1
    · exact foldl_new l _ h hn.2

/-- What an import says about a name. -/
def Says (c : Call) (x : Bytes × Nat) : Prop := ∃ p n, c = .importPage p ∧ x ∈ (p.fetch n).templates

theorem step_templates {e : Content.Env} {s s' : St} {c : Call} {k : Program.Call} (h : step e s c = some (s', k)) {x : Bytes × Nat}
    (hx : x ∈ s.templates) (hs : ∀ y, Says c y → y.1 = x.1 → y.2 = x.2) : x ∈ s'.templates := by
  simp only [step, Option.bind_eq_some_iff, Option.map_eq_some_iff, Prod.mk.injEq] at h
  obtain ⟨r, h1, p, h2, rfl, rfl⟩ := h
  cases c with
  | importPage p =>
    simp only [St.prepare, Option.some.injEq] at h1
    subst h1
    exact foldl_keep _ _ hx fun y hy => hs y ⟨p, _, rfl, hy⟩
  | useTemplate p x y w h =>
    simp only [St.prepare, Option.some.injEq] at h1
    subst h1; exact hx
  | other k =>
    simp only [St.prepare] at h1
    split at h1
    · simp only [Option.some.injEq] at h1; subst h1; exact hx
    · cases h1

theorem steps_templates {e : Content.Env} : ∀ (prog : List Call) (s s' : St) (calls : List Program.Call), steps e s prog = some (s', calls) →
    ∀ {x : Bytes × Nat}, x ∈ s.templates → (∀ c ∈ prog, ∀ y, Says c y → y.1 = x.1 → y.2 = x.2) → x ∈ s'.templates
  | [], s, s', calls, h, x, hx, _ => by
    simp only [steps, Option.some.injEq, Prod.mk.injEq] at h
    obtain ⟨rfl, rfl⟩ := h
    exact hx
  | c :: rest, s, s', calls, h, x, hx, hs => by
    obtain ⟨s1, k, calls', h1, h2, rfl⟩ := steps_cons h
    exact steps_templates rest s1 s' calls' h2 (step_templates h1 hx (hs c (by simp))) fun c hc => hs c (by simp [hc])

/-! ### What ImportPagesFromSource draws -/

/-- The item of a page. -/
def itemOf (cfg : Units.Cfg) (height : ℚ) (p : Source) (w h : ℚ) : Content.Item :=
  .template height (p.place (Units.toPoints cfg 0) (Units.toPoints cfg 0) (Units.toPoints cfg w) (Units.toPoints cfg h)).1
    (p.place (Units.toPoints cfg 0) (Units.toPoints cfg 0) (Units.toPoints cfg w) (Units.toPoints cfg h)).2.1
    (p.place (Units.toPoints cfg 0) (Units.toPoints cfg 0) (Units.toPoints cfg w) (Units.toPoints cfg h)).2.2.1
    (p.place (Units.toPoints cfg 0) (Units.toPoints cfg 0) (Units.toPoints cfg w) (Units.toPoints cfg h)).2.2.2 p.name

theorem modify_last {α : Type} (f : α → α) (a : α) : ∀ l : List α, (l ++ [a]).modify l.length f = l ++ [f a]
  | [] => rfl
  | b :: l => by simp [modify_last f a l]

/-- The three calls for a page. -/
theorem three_calls {e : Content.Env} {s s' : St} {p : Source} {height w h : ℚ} {rest : List Call} {calls : List Program.Call}
    (hr : steps e s (.other (.addPage height) :: .importPage p :: .useTemplate p 0 0 w h :: rest) = some (s', calls)) :
    ∃ s1 n sx sy tx ty calls', steps e s1 rest = some (s', calls') ∧
      calls = .addPage height :: .object (.importObjects n) :: .plain (.template sx sy tx ty p.name) :: calls' ∧
      s1.prog.content.pages = s.prog.content.pages ++ [[itemOf e.cfg height p w h]] := by
  obtain ⟨s1, k1, c1, a1, b1, rfl⟩ := steps_cons hr
  obtain ⟨s2, k2, c2, a2, b2, rfl⟩ := steps_cons b1
  obtain ⟨s3, k3, c3, a3, b3, rfl⟩ := steps_cons b2
  simp only [step, St.prepare, isOther, if_true, Option.bind_some, Option.map_eq_some_iff, Prod.mk.injEq] at a1 a2 a3
  obtain ⟨p1, a1, rfl, rfl⟩ := a1
  obtain ⟨p2, a2, rfl, rfl⟩ := a2
  obtain ⟨p3, a3, rfl, rfl⟩ := a3
  refine ⟨_, _, _, _, _, _, c3, b3, rfl, ?_⟩
  have e1 : p1.content = { s.prog.content with pages := s.prog.content.pages ++ [[]], page := s.prog.content.pages.length, cur := { s.prog.content.cur with x := s.prog.content.marginLeft, y := s.prog.content.marginTop, pageHeight := height } } := by
    simp [Program.step, Program.docOp, Doc.step, Program.contentCall, Content.step] at a1
    rw [← a1]
  have e2 : p2.content = p1.content := by
    simp [Program.step, Program.docOp, Program.objectOp, Doc.step, Program.contentCall] at a2
    rw [← a2]
  have e3 : p3.content = p2.content.add (itemOf e.cfg p2.content.cur.pageHeight p w h) := by
    simp only [Program.step, Program.docOp, Program.plainCall, Option.map_some, Doc.step, Program.contentCall, Content.step, if_true] at a3
    split at a3
    · cases a3
    · next hd =>
      rw [Doc.Doc.appendPaged] at hd
      split at hd <;> simp at hd
    · simp only [Option.map_some, Option.some.injEq] at a3
      rw [← a3]; rfl
  rw [e3, e2, e1]
  exact modify_last _ _ _

theorem imported_items {e : Content.Env} {height : ℚ} : ∀ (ps : List Source) (s s' : St) (calls : List Program.Call),
    (importPages height ps).2 = true → steps e s (importPages height ps).1 = some (s', calls) →
    calls.countP Program.isPage = ps.length ∧
    ∃ items : List (List Content.Item), s'.prog.content.pages = s.prog.content.pages ++ items ∧ items.length = ps.length ∧
      ∀ (k : Nat) p, ps[k]? = some p → ∃ w h, p.size = some (w, h) ∧ items[k]? = some [itemOf e.cfg height p w h]
  | [], s, s', calls, _, h => by
    simp only [importPages, steps, Option.some.injEq, Prod.mk.injEq] at h
    obtain ⟨rfl, rfl⟩ := h
    exact ⟨rfl, [], by simp, rfl, by simp⟩
  | p :: ps, s, s', calls, hok, hr => by
    cases hs : p.size with
    | none => simp [importPages, hs] at hok
    | some wh =>
      obtain ⟨w, h⟩ := wh
      simp only [importPages, hs, List.cons_append, List.nil_append] at hok hr
      obtain ⟨s1, n, sx, sy, tx, ty, calls', h1, rfl, h2⟩ := three_calls hr
      obtain ⟨q1, items, q2, q3, q4⟩ := imported_items ps s1 s' calls' hok h1
      refine ⟨by rw [List.countP_cons_of_pos (by rfl), List.countP_cons_of_neg (by simp [Program.isPage]), List.countP_cons_of_neg (by simp [Program.isPage]), q1, List.length_cons], [itemOf e.cfg height p w h] :: items, by rw [q2, h2]; simp, by simp [q3], fun k p' hp => ?_⟩
      cases k with
      | zero => simp only [List.getElem?_cons_zero, Option.some.injEq] at hp; subst hp; exact ⟨w, h, hs, rfl⟩
      | succ k => simpa using q4 k p' (by simpa using hp)

end Verif.Import

namespace Verif.Props
open Import Doc Objects ObjectValue PdfObject FileReader Viewer

theorem imported_at {e : Objects.Env} {d : Doc.Doc} (hlen : (file e d).length < 10 ^ 10) {i : Nat} (h : d.idents[i]? = some .imported) :
    ∃ rest, PdfReader.objectBytes (file e d) (i + 1) = some (e.imported i ++ lit "endobj\n\n" ++ rest) := by
  obtain ⟨o, ho, hid⟩ : ∃ o, d.objs[i]? = some o ∧ o.ident = .imported := by
    simpa [Doc.idents, List.getElem?_map, Option.map_eq_some_iff] using h
  have hoi : o = .imported := by cases o <;> simp [Obj.ident] at hid <;> rfl
  subst hoi
  have hi : i < (progs e d).length := by
    have := lt_of_get ho
    simpa [progs] using this
  obtain ⟨rest, hx⟩ := (xref_locates_every_object (progs e d) (trailerOf e d) hlen).2.2 i hi
  have hbody : (progs e d)[i].body = e.imported i := by
    have : (progs e d)[i] = .chunk (e.imported i) := by
      have := List.getElem?_eq_getElem hi
      simp only [progs, List.getElem?_mapIdx, ho, Option.map_some, objBytes, Option.getD_some] at this
      exact (Option.some.inj this).symm
    rw [this]
    simp [Compile.Prog.chunk, Compile.Prog.body]
  rw [hbody] at hx
  exact ⟨rest, hx⟩

/-- **C76** Every object the importer has given for a page is in the file under the number the importer gave it, byte by byte as the
importer gave it, whatever comes before and after: so the references within an imported page are right.  (In a protected document
too: imported streams are not encrypted.) -/
theorem imported_objects {e : Objects.Env} {ce : Content.Env} {prot : Bool} {ml mt : ℚ} {pre post : List Import.Call} {p : Source}
    {s0 s : Import.St} {calls0 calls : List Program.Call} {d : Doc.Doc}
    (hpre : Import.steps ce (Import.start prot ml mt) pre = some (s0, calls0))
    (hrun : Import.steps ce (Import.start prot ml mt) (pre ++ .importPage p :: post) = some (s, calls))
    (hd : d = (Doc.step s.prog.doc .compile).1) (he : e.imported = s.data) (hlen : (file e d).length < 10 ^ 10)
    (hn : Numbered (s0.prog.doc.objs.length + 1) (p.fetch (s0.prog.doc.objs.length + 1))) {i : Nat} {b : Bytes}
    (hi : s0.prog.doc.objs.length < i) (hb : b ≠ []) (hm : (i, b) ∈ (p.fetch (s0.prog.doc.objs.length + 1)).objs) :
    ∃ rest, PdfReader.objectBytes (file e d) i = some (b ++ lit "endobj\n\n" ++ rest) := by
  obtain ⟨s1, c1, c2, h1, h2, rfl⟩ := Import.steps_append _ _ _ _ _ hrun
  rw [hpre, Option.some.injEq, Prod.mk.injEq] at h1
  obtain ⟨rfl, rfl⟩ := h1
  obtain ⟨s2, k, calls', h3, h4, rfl⟩ := Import.steps_cons h2
  obtain ⟨q1, q2⟩ := import_step h3 hn hi hb hm
  obtain ⟨x1, x2⟩ := Import.steps_keep _ _ _ _ h4
  have hx : Ext s2.prog.doc d := x1.trans (by rw [hd]; exact Doc.step_ext _ _)
  have hlt : i - 1 < s2.prog.doc.idents.length := (List.getElem?_eq_some_iff.1 q1).1
  have hid : d.idents[i - 1]? = some .imported := by
    obtain ⟨l, hl⟩ := hx
    rw [← hl, List.getElem?_append_left hlt, q1]
  obtain ⟨rest, hr⟩ := imported_at (e := e) hlen hid
  rw [he, x2 _ (by rwa [← Doc.idents_len]), q2, show i - 1 + 1 = i by omega] at hr
  exact ⟨rest, hr⟩

theorem get_template {l : List (Nat × Nat)} {ts : List (Bytes × Nat)} {x : Bytes × Nat} (hx : x ∈ ts) (hn : (ts.map (·.1)).Nodup)
    (ht : ∀ t ∈ ts, ContentReader.TemplateName t.1) :
    (Val.dict (named "I" l ++ ts.map fun t => (t.1.tail, .ref t.2))).get x.1.tail = some (.ref x.2) := by
  simp only [Val.get]
  obtain ⟨n, e1, -, e2⟩ := ht x hx
  have h1 : (named "I" l).find? (fun p => p.1 == x.1.tail) = none := by
    rw [List.find?_eq_none]
    intro y hy
    simp only [named, List.mem_map] at hy
    obtain ⟨z, -, rfl⟩ := hy
    have := template_ne e2 z.1
    rw [e1]
    simpa using fun h => this h.symm
  rw [List.find?_append, h1, Option.none_or]
  clear h1
  induction ts with
  | nil => simp at hx
  | cons a ts ih =>
    rw [List.map_cons, List.find?_cons]
    rw [List.map_cons, List.nodup_cons] at hn
    rcases List.mem_cons.1 hx with rfl | hx
    · simp
    · obtain ⟨m, f1, -⟩ := ht a (by simp)
      have : a.1.tail ≠ x.1.tail := by
        intro h
        rw [f1, e1] at h
        simp only [List.tail_cons] at h
        exact hn.1 (List.mem_map.2 ⟨x, hx, by rw [e1, f1, h]⟩)
      rw [show ((a.1.tail == x.1.tail) = false) by simpa using this]
      exact ih hx hn.2 fun t ht' => ht t (by simp [ht'])

/-- **C76** The name the importer gave to a form means that form, on every page of the file: unless a later import gives the name
another number. -/
theorem imported_names {e : Objects.Env} {ce : Content.Env} {prot : Bool} {ml mt : ℚ} {pre post : List Import.Call} {p : Source}
    {s0 s : Import.St} {calls0 calls : List Program.Call} {d : Doc.Doc} {c : Decoder}
    (hpre : Import.steps ce (Import.start prot ml mt) pre = some (s0, calls0))
    (hrun : Import.steps ce (Import.start prot ml mt) (pre ++ .importPage p :: post) = some (s, calls))
    (h : Output e ce prot ml mt calls s.prog d c) (ht : e.templates = s.templates)
    {x : Bytes × Nat} (hx : x ∈ (p.fetch (s0.prog.doc.objs.length + 1)).templates)
    (hnames : ((p.fetch (s0.prog.doc.objs.length + 1)).templates.map (·.1)).Nodup)
    (hlater : ∀ q n y, Import.Call.importPage q ∈ post → y ∈ (q.fetch n).templates → y.1 = x.1 → y.2 = x.2) :
    ∀ pages, view c (file e d) = some pages → ∀ v ∈ pages, resource (file e d) v.1 "XObject" x.1.tail = some x.2 := by
  obtain ⟨s1, c1, c2, h1, h2, rfl⟩ := Import.steps_append _ _ _ _ _ hrun
  rw [hpre, Option.some.injEq, Prod.mk.injEq] at h1
  obtain ⟨rfl, rfl⟩ := h1
  obtain ⟨s2, k, calls', h3, h4, rfl⟩ := Import.steps_cons h2
  have hin : x ∈ s2.templates := by
    simp only [Import.step, St.prepare, Option.bind_some, Option.map_eq_some_iff, Prod.mk.injEq] at h3
    obtain ⟨pr, -, rfl, -⟩ := h3
    exact foldl_new _ _ hx hnames
  have hfin : x ∈ e.templates := by
    rw [ht]
    refine steps_templates _ _ _ _ h4 hin ?_
    rintro cc hc y ⟨q, n, rfl, hy⟩
    exact hlater q n y hc hy
  intro pages hv v hvm
  obtain ⟨pages', v1, -, -, v4⟩ := program_view h
  rw [hv, Option.some.injEq] at v1
  subst v1
  obtain ⟨k, hk⟩ := List.mem_iff_getElem?.1 hvm
  obtain ⟨-, n, cs, ls, r, ho, hpg⟩ := v4 k v.1 v.2 hk
  obtain ⟨rfl, h4'⟩ := page_resources d h.compiled.reachable n cs ls r ho
  obtain ⟨fs, cs', xs, gs, hp⟩ : ∃ fs cs xs gs, d.objAt 4 = some (.procset fs cs xs gs) := by
    cases hq : d.objAt 4 with
    | none => rw [hq] at h4'; simp at h4'
    | some o => rw [hq] at h4'; cases o <;> simp [Obj.kind] at h4'; exact ⟨_, _, _, _, rfl⟩
  obtain ⟨-, -, g3, -⟩ := get_proc e d 3 fs cs' xs gs
  have hobj := h.compiled.object hp trivial
  simp only [FileReader.resource, hpg, get_page_resources, Option.bind_some, refOf, hobj, g3]
  rw [get_template hfin h.names.templates fun t ht => (h.names.template t ht).1]
  rfl

/-- The page as a viewer paints it: the form, scaled by `f`, its upper left corner in the upper left corner of the page. -/
def ShowsForm (f height H : ℚ) (name : Bytes) (o : List Paint.Op) : Prop :=
  ∃ exact, List.Forall₂ ContentReader.NearOp o exact ∧ ∀ wd, ∃ r, Paint.run wd {} exact = some r ∧
    Canvas.figures r.marks = [.template name ⟨f, 0, 0, f, 0, height - f * H⟩]

/-- **C76** ImportPagesFromSource, in any document: if the importer knows the size of every page and places forms as it should, the
file ends with one page for every page of the source, in order; each shows that page's form and nothing else, its upper left corner
in the upper left corner of the page, in its own size if the unit of the document is points - else larger by the factor of the
unit. -/
theorem imported_pages {e : Objects.Env} {ce : Content.Env} {prot : Bool} {ml mt height : ℚ} {pre : List Import.Call} {ps : List Source}
    {s0 s : Import.St} {calls0 calls : List Program.Call} {d : Doc.Doc} {c : Decoder}
    (hpre : Import.steps ce (Import.start prot ml mt) pre = some (s0, calls0))
    (hrun : Import.steps ce (Import.start prot ml mt) (pre ++ (importPages height ps).1) = some (s, calls))
    (h : Output e ce prot ml mt calls s.prog d c) (hok : (importPages height ps).2 = true)
    (hfit : ∀ p ∈ ps, ∀ W H, p.size = some (W, H) → Fits p W H) :
    ∃ pages, view c (file e d) = some pages ∧ pages.length = calls0.countP Program.isPage + ps.length ∧
      ∀ (k : Nat) p, ps[k]? = some p → ∃ W H page o, p.size = some (W, H) ∧ pages[calls0.countP Program.isPage + k]? = some (page, o) ∧
        ShowsForm (Units.toPoints ce.cfg 1) height H p.name o := by
  obtain ⟨s1, c1, c2, h1, h2, rfl⟩ := Import.steps_append _ _ _ _ _ hrun
  rw [hpre, Option.some.injEq, Prod.mk.injEq] at h1
  obtain ⟨rfl, rfl⟩ := h1
  obtain ⟨q1, items, q2, q3, q4⟩ := imported_items ps s0 s c2 hok h2
  obtain ⟨pages, v1, v2, v3, v4⟩ := program_view h
  rw [List.countP_append, q1] at v2
  have hlen : s0.prog.content.pages.length = calls0.countP Program.isPage + 1 := by
    rw [q2, List.length_append, q3, v2] at v3
    omega
  refine ⟨pages, v1, v2, fun k p hp => ?_⟩
  obtain ⟨W, H, w1, w2⟩ := q4 k p hp
  have hk : calls0.countP Program.isPage + k < pages.length := by
    have := (List.getElem?_eq_some_iff.1 hp).1
    omega
  rcases hpo : pages[calls0.countP Program.isPage + k] with ⟨page, o⟩
  have hget := List.getElem?_eq_getElem hk
  rw [hpo] at hget
  refine ⟨W, H, page, o, w1, hget, ?_⟩
  obtain ⟨⟨-, hnear⟩, -⟩ := v4 _ page o hget
  have hitem : s.prog.content.pages.getD (calls0.countP Program.isPage + k + 1) [] = [itemOf ce.cfg height p W H] := by
    rw [List.getD_eq_getElem?_getD, q2, List.getElem?_append_right (by omega), hlen,
      show calls0.countP Program.isPage + k + 1 - (calls0.countP Program.isPage + 1) = k by omega, w2]
    rfl
  rw [hitem] at hnear
  refine ⟨_, hnear, fun wd => ?_⟩
  obtain ⟨hW, hH, hplace⟩ := hfit p (List.mem_of_getElem? hp) W H w1
  have hz : Units.toPoints ce.cfg 0 = 0 := by simp [Units.toPoints]
  have hlin : ∀ u, Units.toPoints ce.cfg u = u * Units.toPoints ce.cfg 1 := by
    intro u; unfold Units.toPoints; split <;> ring
  simp only [itemOf, hplace, hz, Content.pageOps, List.flatMap_cons, List.flatMap_nil, List.append_nil, Content.ops]
  simp only [Paint.run, Paint.exec, Paint.exec.state, if_true, Option.bind_some]
  refine ⟨_, rfl, ?_⟩
  simp only [Canvas.figures, List.nil_append, List.filterMap_cons, List.filterMap_nil, Canvas.figure, Paint.Mat.mul, Paint.Mat.one, List.cons.injEq, and_true,
    Canvas.Figure.template.injEq, true_and, Paint.Mat.mk.injEq]
  rw [hlin W, hlin H]
  refine ⟨?_, ?_, ?_, ?_, ?_, ?_⟩ <;> (try field_simp) <;> ring

/-- **C76** If the size of a page is not known, ImportPagesFromSource fails after the pages before it have been imported. -/
theorem import_stops (height : ℚ) (p : Source) (rest : List Source) (hp : p.size = none) : ∀ ps : List Source, (∀ q ∈ ps, q.size.isSome) →
    importPages height (ps ++ p :: rest) = ((importPages height ps).1, false) ∧ (importPages height ps).2 = true
  | [], _ => by simp [importPages, hp]
  | q :: ps, h => by
    obtain ⟨⟨w, ht⟩, hq⟩ := Option.isSome_iff_exists.1 (h q (by simp))
    obtain ⟨h1, h2⟩ := import_stops height p rest hp ps fun q hq => h q (by simp [hq])
    simp [importPages, hq, h1, h2]

/-- **C76** (the numbers must have no gaps) objects 6 and 8 from an importer that was told to go on with 6: only one of them gets
into the document. -/
theorem import_gap_fails : ∃ objs : List (Nat × Bytes), (objs.map (·.1)).Nodup ∧ (∀ o ∈ objs, 6 ≤ o.1 ∧ o.2 ≠ []) ∧
    (newObjects objs 6).length < objs.length :=
  ⟨[(6, lit "a"), (8, lit "b")], by decide, by decide, by decide⟩

/-- **C76** (points only) in millimetres an imported page is not shown in its own size. -/
theorem imported_size_fails : ∃ cfg : Units.Cfg, cfg = ⟨2, 0⟩ ∧ Units.toPoints cfg 1 = 720 / 254 :=
  ⟨⟨2, 0⟩, rfl, by decide +kernel⟩

/-- **C76** (unprotected documents only) streams of imported objects are written as they were read (`imported_objects`); a viewer of a
protected document decrypts them, and gets something else. -/
theorem imported_protected_fails : ∃ (c : Decoder) (n : Nat) (data : Bytes), c.key.isSome = true ∧ c.decrypt n data ≠ data :=
  ⟨⟨toyMd5, some [1, 2, 3, 4, 5], some⟩, 12, lit "0 0 m", rfl, by decide +kernel⟩

end Verif.Props
