import Verif.Lemmas.Doc.Parts
import Verif.Lemmas.Objects.Read
import Verif.Lemmas.Objects.Structure
import Verif.Props.Compile
/- C55: the objects of a file. -/
set_option maxRecDepth 10000
namespace Verif.Props
open Doc Objects ObjectValue PdfObject

/-- What the caller's texts and the state machine guarantee together. -/
theorem printable {prot : Bool} {h : List Op} (hc : Op.compile ∉ h) {e : Env} (hn : PlainNames e) {i : Nat} {o : Obj}
    (ho : (exec (start prot) (h ++ [.compile])).objs[i]? = some o) (hw : Written (exec (start prot) (h ++ [.compile])) o) :
    Printable e (exec (start prot) (h ++ [.compile])) i o := by
  have hr : Reachable (exec (start prot) (h ++ [.compile])) := ⟨prot, _, rfl⟩
  cases o with
  | page cs ls r =>
    show cs.length ≤ 1
    rw [page_contents hc ho, List.length_map]
    exact ctIdx_length ⟨prot, h, rfl⟩ i
  | procset fs cs xs gs =>
    obtain ⟨h1, h2, h3, h4⟩ := proc_distinct hr ho
    exact ⟨h1, h2, h3, h4, hn.templates, hn.template⟩
  | fontDesc f => exact hn.family _
  | cidFont f => exact hn.family _
  | font f a b c u => exact hn.family _
  | colorSpace n k => exact hn.csName _
  | outline t de p pr ne => exact hn.title _
  | annot a =>
    cases a with
    | none => trivial
    | some a => exact hw
  | imported => exact hw
  | _ => trivial

theorem object_of_back {e : Env} {d : Doc} (hlen : (file e d).length < 10 ^ 10) {i : Nat} {o : Obj} (ho : d.objs[i]? = some o)
    {b : Bytes} {v : Val} {data : Option Bytes} (hb : objBytes e d i o = some b) (h : Back b v data) :
    object (file e d) (i + 1) = some (v, data) := by
  have hi : i < (progs e d).length := by
    have := lt_of_get ho
    simpa [progs] using this
  obtain ⟨rest, hx⟩ := (xref_locates_every_object (progs e d) (trailerOf e d) hlen).2.2 i hi
  have hbody : (progs e d)[i].body = b := by
    have : (progs e d)[i] = .chunk b := by
      have := List.getElem?_eq_getElem hi
      simp only [progs, List.getElem?_mapIdx, ho, Option.map_some, hb, Option.getD_some] at this
      exact (Option.some.inj this).symm
    rw [this]
    simp [Compile.Prog.chunk, Compile.Prog.body]
  have e1 : lit "endobj\n\n" = lit "endobj\n" ++ lit "\n" := by decide
  unfold object file
  rw [hx, hbody, e1]
  have := h (lit "\n" ++ rest)
  simp only [Option.bind_some, List.append_assoc] at this ⊢
  exact this

/-- **C55** Every object of the file is what it should be: for every history of calls compiled once, protected or not,
whatever sizes, texts, images and fonts the caller gave, reading the object with number `i+1` through the cross-reference
table with an independent reader of PDF objects gives exactly the dictionary (array, stream) `objVal` and the stream data.
Numbers come back rounded to the digits printed, strings and names byte for byte. -/
theorem every_object_reads_back (e : Env) (he : Sound e) (hn : PlainNames e) (prot : Bool) (h : List Op) (hc : Op.compile ∉ h)
    (hlen : (file e (exec (start prot) (h ++ [.compile]))).length < 10 ^ 10) (i : Nat) (o : Obj)
    (ho : (exec (start prot) (h ++ [.compile])).objs[i]? = some o) (hw : Written (exec (start prot) (h ++ [.compile])) o) :
    object (file e (exec (start prot) (h ++ [.compile]))) (i + 1) =
      some (objVal e (exec (start prot) (h ++ [.compile])) i o, storedData e (exec (start prot) (h ++ [.compile])) i o) := by
  obtain ⟨b, h1, h2⟩ := object_back he _ i o (printable hc hn ho hw)
  exact object_of_back hlen ho h1 h2

end Verif.Props

namespace Verif.Props
open ObjectValue

/-- **C55** A number written with `k` digits is within half a unit of the last digit of the number given. -/
theorem written_number_near (k : Nat) (q : ℚ) : |decimal k q - q| ≤ 1 / (2 * 10 ^ k) := by
  have hp : (0 : ℚ) < 10 ^ k := by positivity
  have h1 := Int.floor_le (|q| * 10 ^ k)
  have h2 := Int.lt_floor_add_one (|q| * 10 ^ k)
  have key : |(if |q| * 10 ^ k - (⌊|q| * 10 ^ k⌋ : ℚ) < 1 / 2 ∨ (|q| * 10 ^ k - (⌊|q| * 10 ^ k⌋ : ℚ) = 1 / 2 ∧ ⌊|q| * 10 ^ k⌋ % 2 = 0)
      then (⌊|q| * 10 ^ k⌋ : ℚ) else (⌊|q| * 10 ^ k⌋ : ℚ) + 1) - |q| * 10 ^ k| ≤ 1 / 2 := by
    split
    · next h => rw [abs_le]; constructor <;> rcases h with h | h <;> linarith [h]
    · next h =>
      have : ¬ |q| * 10 ^ k - (⌊|q| * 10 ^ k⌋ : ℚ) < 1 / 2 := fun hh => h (Or.inl hh)
      rw [abs_le]; constructor <;> linarith
  unfold decimal
  simp only
  generalize (if |q| * 10 ^ k - (⌊|q| * 10 ^ k⌋ : ℚ) < 1 / 2 ∨ (|q| * 10 ^ k - (⌊|q| * 10 ^ k⌋ : ℚ) = 1 / 2 ∧ ⌊|q| * 10 ^ k⌋ % 2 = 0)
      then (⌊|q| * 10 ^ k⌋ : ℚ) else (⌊|q| * 10 ^ k⌋ : ℚ) + 1) = r at *
  have e : |(if q < 0 then -r else r) / 10 ^ k - q| = |r - |q| * 10 ^ k| / 10 ^ k := by
    rw [← abs_of_pos hp, ← abs_div, abs_of_pos hp]
    by_cases hq : q < 0
    · rw [if_pos hq, abs_of_neg hq, ← abs_neg]
      congr 1
      field_simp
      ring
    · rw [if_neg hq, abs_of_nonneg (not_lt.1 hq)]
      congr 1
      field_simp
  rw [e, div_le_iff₀ hp]
  calc |r - |q| * 10 ^ k| ≤ 1 / 2 := key
    _ = 1 / (2 * 10 ^ k) * 10 ^ k := by field_simp

example : decimal 2 (-1 / 3) = -33 / 100 := by decide +kernel

end Verif.Props
