import Verif.Lemmas.Doc.Layout
import Verif.Props.DocPages
import Verif.Spec.ObjectValue
/- What a document compiled once prints can be printed. -/
namespace Verif.PdfObject
open Doc

theorem its_at (d : Doc) (i : Nat) : d.its[i]? = (d.objs[i]?).map Obj.item := by simp [Doc.its]

theorem item_ct {d : Doc} {i : Nat} (h : ct d.objs i = true) : ∃ ts, d.its[i]? = some (some (.content ts)) := by
  unfold ct at h
  rw [its_at]
  cases ho : d.objs[i]? with
  | none => rw [ho] at h; simp at h
  | some o =>
    rw [ho] at h
    simp at h
    obtain ⟨es, rfl⟩ := isCt_iff.1 h
    exact ⟨_, rfl⟩

theorem item_none {d : Doc} {i : Nat} (hi : i < d.objs.length) (h : ct d.objs i = false) (h' : pg d.objs i = false) : d.its[i]? = some none := by
  unfold ct at h
  unfold pg at h'
  rw [its_at, List.getElem?_eq_getElem hi] at *
  simp at h h' ⊢
  cases ho : d.objs[i] <;> rw [ho] at h h' <;> simp_all [Obj.isCt, Obj.isPg, Obj.item]

theorem rank_some {l : List (Option Item)} {i : Nat} {x : Item} (h : l[i]? = some (some x)) : rank l (i + 1) = rank l i + 1 := by
  unfold rank
  rw [List.take_add_one, h]
  simp

theorem rank_none {l : List (Option Item)} {i : Nat} (h : l[i]? = some none) : rank l (i + 1) = rank l i := by
  unfold rank
  rw [List.take_add_one, h]
  simp

theorem rank_gap {l : List (Option Item)} {i n : Nat} (h : ∀ j, i ≤ j → j < i + n → l[j]? = some none) : rank l (i + n) = rank l i := by
  induction n with
  | zero => rfl
  | succ n ih => rw [← Nat.add_assoc, rank_none (h _ (by omega) (by omega)), ih (fun j h1 h2 => h j h1 (by omega))]

/-- Two streams never follow one another without a page between them. -/
theorem alone {d : Doc} (o : One d.view) {j j' : Nat} (hlt : j < j') (h : ct d.objs j = true) (h' : ct d.objs j' = true)
    (hp : ∀ q, j < q → q < j' → pg d.objs q = false) : False := by
  induction hn : j' - j using Nat.strong_induction_on generalizing j j' with
  | _ n ih =>
    by_cases hb : ∃ q, j < q ∧ q < j' ∧ ct d.objs q = true
    · obtain ⟨q, h1, h2, h3⟩ := hb
      exact ih (q - j) (by omega) h1 h h3 (fun r r1 r2 => hp r r1 (by omega)) rfl
    · obtain ⟨ts, e⟩ := item_ct h
      obtain ⟨ts', e'⟩ := item_ct h'
      have hl : j' < d.objs.length := by
        have := lt_of_get e'
        simpa [Doc.its] using this
      have hr : rank d.its j' = rank d.its j + 1 := by
        rw [← rank_some e]
        have := rank_gap (l := d.its) (i := j + 1) (n := j' - (j + 1)) (fun q h1 h2 =>
          item_none (by omega) (by
            cases hc : ct d.objs q with
            | false => rfl
            | true => exact absurd ⟨q, by omega, by omega, hc⟩ hb) (hp q (by omega) (by omega)))
        rwa [show j + 1 + (j' - (j + 1)) = j' from by omega] at this
      have g := rank_get e
      have g' := rank_get e'
      rw [hr] at g'
      exact o.alone _ _ _ g g'

/-- A page has at most one content stream. -/
theorem ctIdx_length {d : Doc} (h : Reachable d) (p : Nat) : (d.ctIdx p).length ≤ 1 := by
  have o := reachable_one h
  have hp : (d.ctIdx p).Pairwise (· < ·) := by
    unfold Doc.ctIdx cts
    exact List.Pairwise.filter _ List.pairwise_lt_range
  match hc : d.ctIdx p with
  | [] => simp
  | [_] => simp
  | j :: j' :: t =>
    exfalso
    rw [hc] at hp
    have hlt : j < j' := (List.pairwise_cons.1 hp).1 j' (by simp)
    have m : ∀ x ∈ d.ctIdx p, ct d.objs x = true ∧ lastPg d.objs x = some p := by
      intro x hx
      simp only [Doc.ctIdx, cts, List.mem_filter, Bool.and_eq_true, beq_iff_eq] at hx
      exact hx.2
    have m1 := m j (by rw [hc]; simp)
    have m2 := m j' (by rw [hc]; simp)
    have l1 := lastPg_some.1 m1.2
    exact alone o hlt m1.1 m2.1 (fun q h1 h2 => (lastPg_some.1 m2.2).2.2 q (by omega) h2)

/-- After the first compile. -/
theorem page_contents {prot : Bool} {h : List Op} (hc : Op.compile ∉ h) {i : Nat} {cs ls : List Nat} {r : Nat}
    (ho : (exec (start prot) (h ++ [.compile])).objs[i]? = some (.page cs ls r)) :
    cs = ((exec (start prot) h).ctIdx i).map (· + 1) := by
  have hd : exec (start prot) (h ++ [.compile]) = (exec (start prot) h).prepare := by simp only [exec_append]; rfl
  have hr : Reachable (exec (start prot) h) := ⟨prot, h, rfl⟩
  have f := exec_fresh prot h hc
  rw [hd, prepare_at] at ho
  obtain ⟨o, h1, h2⟩ := Option.map_eq_some_iff.1 ho
  cases o <;> simp [prepObj] at h2
  case page c a r' =>
    obtain ⟨rfl, rfl, rfl⟩ := h2
    have h0 : i ≠ 0 := by
      rintro rfl
      have := reachable_base (d := (exec (start prot) h).prepare) ⟨prot, h ++ [.compile], hd.symm⟩
      have := this.b0
      unfold Doc.idents at this
      rw [List.getElem?_map, prepare_at, h1] at this
      simp [prepObj, Obj.ident] at this
    rw [prep0_at _ h0] at h1
    have hm : Obj.page c a r' ∈ (exec (start prot) h).objs := by
      have := List.mem_of_getElem? h1
      rcases List.mem_append.1 this with hm | hm
      · exact hm
      · split at hm <;> simp at hm
    have hb := f _ hm
    simp [Obj.tree, Blank] at hb
    subst hb
    rw [prep0_cts]; rfl
  case pages => split at h2 <;> simp at h2

theorem proc_index {d : Doc} (h : Reachable d) {i : Nat} {fs cs xs gs} (ho : d.objs[i]? = some (.procset fs cs xs gs)) : i = procIdx := by
  rcases reachable_obj h ho with ⟨_, e⟩ | ⟨_, e⟩ | ⟨_, e⟩ | ⟨e, _⟩ | ⟨_, e⟩
  · simp [Obj.kind] at e
  · simp [Obj.kind] at e
  · simp [Obj.kind] at e
  · exact e
  · exact absurd e id

/-- The names of each resource category are distinct. -/
theorem proc_distinct {d : Doc} (h : Reachable d) {i : Nat} {fs : List RelFont} {cs : List RelCS} {xs gs : List Nat}
    (ho : d.objs[i]? = some (.procset fs cs xs gs)) :
    (fs.map (·.count)).Nodup ∧ (cs.map (·.count)).Nodup ∧ xs.Nodup ∧ gs.Nodup := by
  obtain rfl := proc_index h ho
  have r := reachable_res h
  have e1 : d.relFonts = fs := by simp only [Doc.relFonts, ho]
  have e2 : d.relCSs = cs := by simp only [Doc.relCSs, ho]
  have e3 : d.relXobjs = xs := by simp only [Doc.relXobjs, ho]
  have e4 : d.relGSs = gs := by simp only [Doc.relGSs, ho]
  refine ⟨?_, ?_, e3 ▸ Props.nodup_imgs h, e4 ▸ Props.nodup_gss h⟩
  · rw [← e1, r.fontCount]; exact List.nodup_range
  · rw [← e2, r.csCount]; exact List.nodup_range

end Verif.PdfObject
