import Verif.Lemmas.Info
/- C17: document information text. -/
namespace Verif.Props
open Info Utf16

/-- **C17** (code points up to U+FFFF; beyond see `info_text_roundtrip_fails`) the text written for any string without characters beyond the
Basic Multilingual Plane is decoded back by a UTF-16BE reader. -/
theorem info_text_roundtrip (s : List Nat) (hs : ∀ r ∈ s, Scalar r) (hb : ∀ r ∈ s, r ≤ 0xFFFF) :
    textOfHex (lit "FEFF" ++ encodeUtf8 s) = some s :=
  textOfHex_encode s fun r hr => by
    have h1 := hs r hr; have h2 := hb r hr
    unfold Scalar at h1; unfold Bmp; omega

example : (∀ r ∈ [0x41, 0xE01, 0xFFFD], Scalar r) ∧ ∀ r ∈ [0x41, 0xE01, 0xFFFD], r ≤ 0xFFFF := by
  simp [Scalar]

/-- **C17** (as above) read as a dictionary, the information entries are exactly the non-empty fields
given to `SetInfo`, each under its own key. (The formatted creation date contains no space.) -/
theorem info_dictionary_roundtrip (i : PdfInfo) (hd : ∀ d ∈ i.creationDate, (32 : UInt8) ∉ d)
    (h : ∀ s ∈ [i.author, i.title, i.subject, i.creator, i.producer], ∀ r ∈ s, Scalar r ∧ r ≤ 0xFFFF) :
    ∃ body, (writeInfo i).flatten = lit "/Info <<\n" ++ body ∧
    ∀ n, 5 ≤ n → infoFields n body =
      ([(lit "Author", i.author), (lit "Title", i.title), (lit "Subject", i.subject),
        (lit "Creator", i.creator), (lit "Producer", i.producer)].filter (fun p => !p.2.isEmpty)).map
          (fun p => (p.1, some p.2)) := by
  have hb : ∀ s ∈ [i.author, i.title, i.subject, i.creator, i.producer], ∀ r ∈ s, Bmp r := by
    intro s hs r hr
    have := h s hs r hr
    unfold Scalar at this; unfold Bmp; omega
  have ha := hb i.author (by simp)
  have ht := hb i.title (by simp)
  have hsu := hb i.subject (by simp)
  have hc := hb i.creator (by simp)
  have hp := hb i.producer (by simp)
  refine ⟨(infoLine "Author" i.author).flatten ++ ((infoLine "Title" i.title).flatten ++
      ((infoLine "Subject" i.subject).flatten ++ ((infoLine "Creator" i.creator).flatten ++
      ((infoLine "Producer" i.producer).flatten ++ infoTail i)))), ?_, ?_⟩
  · unfold writeInfo infoTail; cases i.creationDate <;> simp [List.append_assoc]
  · intro n hn
    have hl : ∀ k s, (infoLine k s).length ≤ 1 := by intro k s; unfold infoLine; split <;> simp
    have l1 := hl "Author" i.author
    have l2 := hl "Title" i.title
    have l3 := hl "Subject" i.subject
    have l4 := hl "Creator" i.creator
    have l5 := hl "Producer" i.producer
    obtain ⟨m, rfl⟩ : ∃ m, n = ((((m + (infoLine "Producer" i.producer).length) +
      (infoLine "Creator" i.creator).length) +
      (infoLine "Subject" i.subject).length) + (infoLine "Title" i.title).length) +
      (infoLine "Author" i.author).length := ⟨n - (infoLine "Producer" i.producer).length -
      (infoLine "Creator" i.creator).length - (infoLine "Subject" i.subject).length -
      (infoLine "Title" i.title).length - (infoLine "Author" i.author).length, by omega⟩
    rw [infoFields_line _ (by decide) _ _ _ ha, infoFields_line _ (by decide) _ _ _ ht,
      infoFields_line _ (by decide) _ _ _ hsu, infoFields_line _ (by decide) _ _ _ hc,
      infoFields_line _ (by decide) _ _ _ hp, infoFields_tail i hd]
    by_cases h1 : i.author = [] <;> by_cases h2 : i.title = [] <;> by_cases h3 : i.subject = [] <;>
      by_cases h4 : i.creator = [] <;> by_cases h5 : i.producer = [] <;> simp [h1, h2, h3, h4, h5]

example : let i : PdfInfo := { title := [0x41], author := [0xE01], creationDate := some (lit "20240101000000+07'00'") }
    (∀ d ∈ i.creationDate, (32 : UInt8) ∉ d) ∧
    ∀ s ∈ [i.author, i.title, i.subject, i.creator, i.producer], ∀ r ∈ s, Scalar r ∧ r ≤ 0xFFFF := by
  refine ⟨?_, by simp [Scalar]⟩
  intro d hd; simp at hd; subst hd; decide

/-- **C17** (violated beyond U+FFFF) the emoji U+1F600 is not recovered. -/
theorem info_text_roundtrip_fails :
    ∃ s : List Nat, (∀ r ∈ s, Scalar r) ∧ textOfHex (lit "FEFF" ++ encodeUtf8 s) ≠ some s :=
  ⟨[0x1F600], by simp [Scalar], by decide⟩

/-- **C17** (violated beyond U+FFFF) no reader whatsoever can recover the text: two different strings are written
identically. -/
theorem info_text_ambiguous_fails (reader : Bytes → Option (List Nat)) :
    ¬ ∀ s : List Nat, (∀ r ∈ s, Scalar r) → reader (encodeUtf8 s) = some s := by
  intro h
  have h1 := h [0x1F601, 0xABCD] (by simp [Scalar])
  have h2 := h [0x1F60, 0x1ABCD] (by simp [Scalar])
  have e : encodeUtf8 [0x1F601, 0xABCD] = encodeUtf8 [0x1F60, 0x1ABCD] := by decide
  rw [e] at h1
  rw [h1] at h2
  exact absurd h2 (by decide)

end Verif.Props
