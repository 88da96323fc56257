import Verif.Spec.InfoReader
import Verif.Props.FilePages
import Verif.Props.Info
import Verif.Props.InfoDate
/- C17, C57: the document information in the file. -/
set_option maxRecDepth 10000
namespace Verif.Props
open Doc Objects ObjectValue PdfObject FileReader

/-- Characters a text of the information dictionary may have: those of the Basic Multilingual Plane. -/
def PlainText (s : List Nat) : Prop := ∀ r ∈ s, Utf16.Scalar r ∧ r ≤ 0xFFFF

private theorem text_utf16 (s : List Nat) (h : PlainText s) : text (.str (utf16 s)) = some s := by
  have h16 : ∀ r ∈ s, r < 65536 := fun r hr => by have := (h r hr).2; omega
  have hb : ∀ r ∈ s, Info.Bmp r := fun r hr => by
    have := h r hr; unfold Utf16.Scalar at this; unfold Info.Bmp; omega
  simp only [text, utf16, dropPrefix?, if_true, Option.bind_some]
  have e8 : ∀ r : Nat, UInt8.ofNat r = UInt8.ofNat (r % 256) := fun r => by
    apply UInt8.toNat_inj.1; simp
  have := Info.units_flatMap s h16
  rw [show (fun r : Nat => [UInt8.ofNat (r / 256), UInt8.ofNat r]) = fun r => [UInt8.ofNat (r / 256), UInt8.ofNat (r % 256)] from
    funext fun r => by rw [e8 r]]
  rw [this, Option.bind_some, Info.decodeUnits_bmp s hb]

/-- The information dictionary a reader finds. -/
theorem info_reads_back (e : Env) (d : Doc) (i : Info.PdfInfo) (he : e.info = some i) (hi : InfoOK i) (hlen : (file e d).length < 10 ^ 10) :
    info (file e d) = some (infoVal i) := by
  unfold info
  rw [trailer_reads_back e d (by rw [he]; simpa using hi) hlen]
  simp only [Option.bind_some, trailerVal, trailerOf, he, List.append_assoc]
  cases d.prot <;> simp only [Bool.false_eq_true, if_true, if_false] <;> lookup

private theorem keys_info (i : Info.PdfInfo) : ((textEntry "Author" i.author ++ textEntry "Title" i.title ++ textEntry "Subject" i.subject ++
    textEntry "Creator" i.creator ++ textEntry "Producer" i.producer ++
    (match i.creationDate with | some t => [("CreationDate", .str (lit "D:" ++ t))] | none => [])).map fun p => lit p.1).Nodup := by
  have := info_keys i
  rwa [keyed_keys] at this

private theorem none_of_not_mem {l : List (String × Val)} {k : String} (h : ∀ p ∈ l, lit p.1 ≠ lit k) : (D l).get (lit k) = none := by
  induction l with
  | nil => rfl
  | cons p l ih => rw [get_ne (h p (by simp))]; exact ih fun q hq => h q (by simp [hq])

/-- An entry of the information dictionary. -/
private theorem get_info (i : Info.PdfInfo) (k : String) (s : List Nat)
    (hk : (k, s) ∈ [("Author", i.author), ("Title", i.title), ("Subject", i.subject), ("Creator", i.creator), ("Producer", i.producer)]) :
    (infoVal i).get (lit k) = if s = [] then none else some (.str (utf16 s)) := by
  have ne : ∀ a ∈ ["Author", "Title", "Subject", "Creator", "Producer", "CreationDate"], ∀ b ∈ ["Author", "Title", "Subject", "Creator", "Producer", "CreationDate"],
      a ≠ b → lit a ≠ lit b := by decide +kernel
  unfold infoVal
  by_cases hs : s = []
  · rw [if_pos hs]
    refine none_of_not_mem ?_
    intro p hp
    have hp' : ∃ t, p.1 = t ∧ t ∈ ["Author", "Title", "Subject", "Creator", "Producer", "CreationDate"] ∧ t ≠ k := by
      simp only [List.mem_append] at hp
      simp only [List.mem_cons, List.not_mem_nil, or_false, Prod.mk.injEq] at hk
      have one : ∀ key x, p ∈ textEntry key x → p.1 = key ∧ x ≠ [] := by
        intro key x h
        unfold textEntry at h
        split at h
        · simp at h
        · next hx => simp at h; exact ⟨by rw [h], hx⟩
      rcases hp with ((((hp | hp) | hp) | hp) | hp) | hp
      · obtain ⟨h1, h2⟩ := one _ _ hp
        exact ⟨_, h1, by simp, by rintro rfl; grind⟩
      · obtain ⟨h1, h2⟩ := one _ _ hp
        exact ⟨_, h1, by simp, by rintro rfl; grind⟩
      · obtain ⟨h1, h2⟩ := one _ _ hp
        exact ⟨_, h1, by simp, by rintro rfl; grind⟩
      · obtain ⟨h1, h2⟩ := one _ _ hp
        exact ⟨_, h1, by simp, by rintro rfl; grind⟩
      · obtain ⟨h1, h2⟩ := one _ _ hp
        exact ⟨_, h1, by simp, by rintro rfl; grind⟩
      · cases hc : i.creationDate with
        | none => rw [hc] at hp; simp at hp
        | some t =>
          rw [hc] at hp
          simp at hp
          exact ⟨_, by rw [hp], by simp, by rintro rfl; grind⟩
    obtain ⟨t, h1, h2, h3⟩ := hp'
    rw [h1]
    refine ne t h2 k ?_ h3
    simp only [List.mem_cons, List.not_mem_nil, or_false, Prod.mk.injEq] at hk
    grind
  · rw [if_neg hs]
    refine get_D_of_mem (keys_info i) ?_
    simp only [List.mem_cons, List.not_mem_nil, or_false, Prod.mk.injEq] at hk
    simp only [List.mem_append]
    have one : (k, Val.str (utf16 s)) ∈ textEntry k s := by simp [textEntry, hs]
    rcases hk with ⟨rfl, rfl⟩ | ⟨rfl, rfl⟩ | ⟨rfl, rfl⟩ | ⟨rfl, rfl⟩ | ⟨rfl, rfl⟩ <;> simp [one]

theorem infodate_bytes (u : Info.Time) : ∀ b ∈ Info.infodate u, b ≠ 40 ∧ b ≠ 41 ∧ b ≠ 92 ∧ b ≠ 13 := by
  have digit : ∀ b : UInt8, isDigit b = true → b ≠ 40 ∧ b ≠ 41 ∧ b ≠ 92 ∧ b ≠ 13 := by
    intro b hb
    simp only [isDigit, Bool.and_eq_true, decide_eq_true_eq] at hb
    refine ⟨?_, ?_, ?_, ?_⟩ <;> rintro rfl <;> revert hb <;> decide
  have app : ∀ n w, ∀ b ∈ Info.appendInt n w, b ≠ 40 ∧ b ≠ 41 ∧ b ≠ 92 ∧ b ≠ 13 := by
    intro n w b hb
    simp only [Info.appendInt, padL, List.mem_append] at hb
    rcases hb with hb | hb | hb
    · split at hb
      · simp at hb; subst hb; decide
      · simp at hb
    · rw [(List.mem_replicate.1 hb).2]; decide
    · exact digit b (dec_all_digit _ b hb)
  have q : ∀ b ∈ lit "'00'", b ≠ 40 ∧ b ≠ 41 ∧ b ≠ 92 ∧ b ≠ 13 := by decide
  intro b hb
  simp only [Info.infodate, List.mem_append] at hb
  rcases hb with hb | hb | hb | hb | hb | hb | hb | hb | hb
  iterate 6 exact app _ _ b hb
  · split at hb <;> simp at hb <;> subst hb <;> decide
  · exact app _ _ b hb
  · exact q b hb

theorem infoOK {i : Info.PdfInfo} (hd : ∀ t ∈ i.creationDate, ∃ u, t = Info.infodate u)
    (h : ∀ s ∈ [i.author, i.title, i.subject, i.creator, i.producer], PlainText s) : InfoOK i := by
  have p : ∀ s ∈ [i.author, i.title, i.subject, i.creator, i.producer], ∀ r ∈ s, r < 65536 := by
    intro s hs r hr
    have := (h s hs r hr).2
    omega
  refine ⟨p _ (by simp), p _ (by simp), p _ (by simp), p _ (by simp), p _ (by simp), ?_⟩
  intro t ht
  obtain ⟨u, rfl⟩ := hd t ht
  exact infodate_bytes u

/-- **C17** Read from the file, the five texts of the document information are those given to `SetInfo` (an empty one is
absent), for any document, protected or not. -/
theorem info_in_file (e : Env) (d : Doc) (i : Info.PdfInfo) (he : e.info = some i) (hlen : (file e d).length < 10 ^ 10)
    (hd : ∀ t ∈ i.creationDate, ∃ u, t = Info.infodate u)
    (h : ∀ s ∈ [i.author, i.title, i.subject, i.creator, i.producer], PlainText s) :
    infoText (file e d) "Author" = some i.author ∧ infoText (file e d) "Title" = some i.title ∧
    infoText (file e d) "Subject" = some i.subject ∧ infoText (file e d) "Creator" = some i.creator ∧
    infoText (file e d) "Producer" = some i.producer := by
  have hr := info_reads_back e d i he (infoOK hd h) hlen
  have one : ∀ k s, (k, s) ∈ [("Author", i.author), ("Title", i.title), ("Subject", i.subject), ("Creator", i.creator), ("Producer", i.producer)] →
      PlainText s → infoText (file e d) k = some s := by
    intro k s hk hs
    unfold infoText
    rw [hr, Option.bind_some, get_info i k s hk]
    by_cases h0 : s = []
    · simp [h0]
    · simp only [h0, if_false]; exact text_utf16 s hs
  exact ⟨one _ _ (by simp) (h _ (by simp)), one _ _ (by simp) (h _ (by simp)), one _ _ (by simp) (h _ (by simp)),
    one _ _ (by simp) (h _ (by simp)), one _ _ (by simp) (h _ (by simp))⟩

/-- **C57** The creation date read from the file, for any document: date and clock as given, the instant late by the part of the
zone's offset beyond whole hours. -/
theorem creation_date_in_file (e : Env) (d : Doc) (i : Info.PdfInfo) (he : e.info = some i) (hlen : (file e d).length < 10 ^ 10)
    (h : ∀ s ∈ [i.author, i.title, i.subject, i.creator, i.producer], PlainText s)
    (t : Info.Time) (ht : GoodTime t) (hd : i.creationDate = Info.dateEntry false t) :
    ∃ x, creationDate (file e d) = some x ∧ (x.year : Int) = t.year ∧ x.month = t.month ∧ x.day = t.day ∧ x.hour = t.hour ∧
      x.minute = t.minute ∧ x.second = t.second ∧ x.instant = instantOf t + t.offset.tmod 3600 := by
  have hd' : i.creationDate = some (Info.infodate t) := by rw [hd]; rfl
  obtain ⟨x, h1, h2⟩ := creation_date_reads t ht
  refine ⟨x, ?_, h2⟩
  have hi : InfoOK i := infoOK (by rw [hd']; intro u hu; simp at hu; exact ⟨t, hu.symm⟩) h
  have hg : (infoVal i).get (lit "CreationDate") = some (.str (lit "D:" ++ Info.infodate t)) := by
    unfold infoVal
    refine get_D_of_mem (keys_info i) ?_
    rw [hd']
    simp
  unfold creationDate
  rw [info_reads_back e d i he hi hlen]
  simp only [Option.bind_some, hg, strOf, h1]

/-- **C57** If the date given to SetInfo is the zero time, the information dictionary of the file has no entry for it. -/
theorem no_creation_date (e : Env) (d : Doc) (i : Info.PdfInfo) (he : e.info = some i) (hlen : (file e d).length < 10 ^ 10)
    (h : ∀ s ∈ [i.author, i.title, i.subject, i.creator, i.producer], PlainText s)
    (t : Info.Time) (hd : i.creationDate = Info.dateEntry true t) :
    ∃ v, info (file e d) = some v ∧ v.get (lit "CreationDate") = none := by
  have hd' : i.creationDate = none := by rw [hd]; rfl
  have hi : InfoOK i := infoOK (by rw [hd']; intro u hu; cases hu) h
  refine ⟨_, info_reads_back e d i he hi hlen, ?_⟩
  have ne : ∀ a ∈ ["Author", "Title", "Subject", "Creator", "Producer"], lit a ≠ lit "CreationDate" := by decide +kernel
  unfold infoVal
  rw [hd']
  refine none_of_not_mem fun p hp => ?_
  have key : ∀ k s, p ∈ textEntry k s → p.1 = k := by
    intro k s hp
    unfold textEntry at hp
    split at hp <;> simp at hp
    rw [hp]
  simp only [List.mem_append, List.not_mem_nil, or_false] at hp
  rcases hp with (((hp | hp) | hp) | hp) | hp <;> rw [key _ _ hp] <;> exact ne _ (by simp)

example : PlainText [0x41, 0xE01, 0xFFFD] := by simp [PlainText, Utf16.Scalar]

end Verif.Props
