import Verif.Props.Holder
/- C80: cases that meet the hypotheses, and what happens without them. -/
namespace Verif.Props
open Holder

/-- Any checksum, here the data themselves; a picture that starts with 7 can only be drawn at a given size. -/
def holderEnv : Holder.Env where
  md5 b := b
  accepts sized b := b ≠ [] && (sized || b.head? ≠ some 7)

theorem holderEnv_empty (z : Bool) : holderEnv.accepts z [] = false := by simp [holderEnv]

/-- One file: named 1, with the data 10, 11. -/
def holderFiles : Holder.Bytes → Option Holder.Bytes := fun p => if p = [1] then some [10, 11] else none

/-- Two holders, one of the file; drawn in two documents, bare and through a mask, the file changed afterwards under another name. -/
def holderActs : List Act :=
  [.byPath [1], .byBytes [20], .byBytes [30], .draw 0 0 none false, .write [2] [77], .draw 0 1 (some (2, false)) true, .draw 1 2 none true, .byPath [3], .draw 0 0 none false]

theorem holderActs_faithful : Faithful holderEnv holderFiles holderActs := by
  have : sources holderEnv holderFiles holderActs = [(true, [1], [10, 11]), (true, [49, 52], [20]), (true, [49, 101], [30])] := by
    simp [sources, named, holderActs, filesAfter, holderFiles, ofBytes, hexByte, holderEnv, Function.update]
  intro p hp q hq
  rw [this] at hp hq
  simp only [List.mem_cons, List.not_mem_nil, or_false] at hp hq
  rcases hp with rfl | rfl | rfl <;> rcases hq with rfl | rfl | rfl <;> simp

theorem holderActs_held : held holderEnv holderFiles holderActs = [([1], [10, 11]), ([49, 52], [20]), ([49, 101], [30])] := by
  simp [held, sources, named, holderActs, filesAfter, holderFiles, ofBytes, hexByte, holderEnv, Function.update]

/-- The holders that are drawn in one document only still work there ... -/
example : ∃ kind, (Holder.step holderEnv (Holder.run holderEnv { files := holderFiles } holderActs) (.draw 0 0 none true)).2 = .shows ([10, 11], kind) none := by
  refine holder_works (before := holderActs.take 3) (since := holderActs.drop 3) holderEnv_empty (n := [1]) ?_ ?_ ?_ ?_ ?_ true
  · rw [List.take_append_drop]; exact holderActs_faithful
  · rw [List.take_append_drop, holderActs_held]; rfl
  · intro z; simp [holderEnv]
  · simp [holderActs, touches]
  · intro a ha
    simp only [holderActs, List.drop_succ_cons, List.drop_zero, List.mem_cons, List.not_mem_nil, or_false] at ha
    rcases ha with rfl | rfl | rfl | rfl | rfl | rfl <;> simp [touches]

/-- ... and show their data. -/
example : (Holder.step holderEnv (Holder.run holderEnv { files := holderFiles } holderActs) (.draw 0 1 (some (2, true)) false)).2
    = .shows ([20], .masked) (some ([30], .mask)) := by decide +kernel

theorem holderActs_role : OneRole holderEnv holderFiles (holderActs ++ [.draw 0 1 (some (2, true)) false]) := by
  have hh : held holderEnv holderFiles (holderActs ++ [.draw 0 1 (some (2, true)) false]) = [([1], [10, 11]), ([49, 52], [20]), ([49, 101], [30])] := by
    simp [held, sources, named, holderActs, filesAfter, holderFiles, ofBytes, hexByte, holderEnv, Function.update]
  intro p hp q hq
  unfold uses at hp hq
  rw [hh] at hp hq
  simp only [holderActs, List.cons_append, List.nil_append, List.flatMap_cons, List.flatMap_nil, asked, List.getElem?_cons_zero, List.getElem?_cons_succ,
    Option.map_some, Option.toList_some, List.append_nil, List.mem_append, List.mem_cons, List.not_mem_nil, or_false, false_or] at hp hq
  rcases hp with rfl | rfl | rfl | rfl | rfl | rfl | rfl <;> rcases hq with rfl | rfl | rfl | rfl | rfl | rfl | rfl <;> simp

/-- **C80** A holder is read once: in a second document, or after Start of the same one, drawing it is an error. -/
theorem second_document_fails :
    (Holder.step holderEnv (Holder.run holderEnv { files := holderFiles } [.byPath [1], .draw 0 0 none true]) (.draw 1 0 none true)).2 = .err ∧
    (Holder.step holderEnv (Holder.run holderEnv { files := holderFiles } [.byPath [1], .draw 0 0 none true, .start 0]) (.draw 0 0 none true)).2 = .err ∧
    (Holder.step holderEnv (Holder.run holderEnv { files := holderFiles } [.byPath [1]]) (.draw 1 0 none true)).2 = .shows ([10, 11], .plain) none := by
  decide +kernel

/-- **C80** A drawing that fails takes the data away too: the size given later does not help. -/
theorem drained_fails :
    (Holder.step holderEnv (Holder.run holderEnv { files := holderFiles } [.byBytes [7, 8], .draw 0 0 none false]) (.draw 0 0 none true)).2 = .err ∧
    (Holder.step holderEnv (Holder.run holderEnv { files := holderFiles } [.byBytes [7, 8]]) (.draw 0 0 none true)).2 = .shows ([7, 8], .plain) none := by
  decide +kernel

/-- **C80** A file that was changed after it was drawn is drawn as it was. -/
theorem changed_file_fails :
    (Holder.step holderEnv (Holder.run holderEnv { files := holderFiles } [.image 0 [1] true, .write [1] [12]]) (.image 0 [1] true)).2 = .shows ([10, 11], .plain) none := by
  decide +kernel

/-- **C80** A picture used as a mask first and drawn later is only its transparency; drawn through a mask first, it loses its
transparency everywhere; drawn first and then used as a mask, the whole picture is the mask. -/
theorem two_roles_fails :
    (Holder.step holderEnv (Holder.run holderEnv { files := holderFiles } [.byBytes [20], .byBytes [30], .draw 0 0 (some (1, true)) true]) (.draw 0 1 none true)).2
      = .shows ([30], .mask) none ∧
    (Holder.step holderEnv (Holder.run holderEnv { files := holderFiles } [.byBytes [20], .byBytes [30], .draw 0 0 (some (1, true)) true]) (.draw 0 0 none true)).2
      = .shows ([20], .masked) none ∧
    (Holder.step holderEnv (Holder.run holderEnv { files := holderFiles } [.byBytes [20], .byBytes [30], .draw 0 1 none true]) (.draw 0 0 (some (1, true)) true)).2
      = .shows ([20], .masked) (some ([30], .plain)) := by
  decide +kernel

end Verif.Props
