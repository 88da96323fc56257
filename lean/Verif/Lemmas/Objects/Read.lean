import Verif.Lemmas.Objects.Data
/- Every object reads back. -/
set_option maxRecDepth 10000
namespace Verif.PdfObject
open Doc Objects ObjectValue

theorem nl_endstream : lit "\nendstream\n" = lit "\n" ++ lit "endstream\n" := by decide

theorem white_nl : ∀ b ∈ lit "\n", ContentReader.isWhite b = true := by decide
theorem white_nil : ∀ b ∈ ([] : Bytes), ContentReader.isWhite b = true := by simp
theorem white_if (c : Bool) : ∀ b ∈ (if c then lit "\n" else []), ContentReader.isWhite b = true := by
  cases c
  · exact white_nil
  · exact white_nl
theorem white_append {a b : Bytes} (ha : ∀ x ∈ a, ContentReader.isWhite x = true) (hb : ∀ x ∈ b, ContentReader.isWhite x = true) :
    ∀ x ∈ a ++ b, ContentReader.isWhite x = true := by
  intro x hx
  rcases List.mem_append.1 hx with h | h
  exacts [ha x h, hb x h]

/-- What the bytes of an object read as. -/
def Back (b : Bytes) (v : Val) (data : Option Bytes) : Prop :=
  ∀ rest, readObject (b ++ (lit "endobj\n" ++ rest)) = some (v, data)

theorem content_back {e : Env} (hs : Sound e) (d : Doc) (i : Nat) (es : List Doc.Entry) :
    ∃ b, objBytes e d i (.content es) = some b ∧ Back b (objVal e d i (.content es)) (storedData e d i (.content es)) := by
  simp only [objBytes, Streams.content, cipher_stored hs, Option.bind_eq_bind, Option.bind_some, Option.pure_def, Option.some.injEq, exists_eq_left']
  intro rest
  have := read_stream' (rest := rest) (data := stored e (i + 1) (contentData e es))
    (eol := if e.key.isSome then lit "\n" else if e.deflate.isSome then lit "\n" else [])
    (content_dict_reads e.deflate.isSome (contentData e es).length)
    (by rw [stored_length]; exact streamLength_D (by cases e.deflate <;> simp <;> decide +kernel) (by simp))
    (by split; exacts [white_nl, white_if _])
  simp only [List.append_assoc] at this ⊢
  rw [this]
  rfl

theorem unicodeMap_back {e : Env} (hs : Sound e) (d : Doc) (i : Nat) :
    ∃ b, objBytes e d i .unicodeMap = some b ∧ Back b (objVal e d i .unicodeMap) (storedData e d i .unicodeMap) := by
  simp only [objBytes, Streams.unicodeMap, cipher_stored hs, Option.bind_eq_bind, Option.bind_some, Option.pure_def, Option.some.injEq, exists_eq_left']
  intro rest
  have := read_stream' (rest := rest) (data := stored e (i + 1) (e.cmap (i + 4))) (eol := [])
    (length_dict_reads (e.cmap (i + 4)).length)
    (by rw [stored_length]; exact streamLength_D (by simp) (by simp)) white_nil
  simp only [List.append_assoc, List.nil_append] at this ⊢
  rw [this]
  rfl

theorem fontFile_back {e : Env} (hs : Sound e) (d : Doc) (i : Nat) :
    ∃ b, objBytes e d i .fontFile = some b ∧ Back b (objVal e d i .fontFile) (storedData e d i .fontFile) := by
  simp only [objBytes, Streams.fontFile, cipher_stored hs, Option.bind_eq_bind, Option.bind_some, Option.pure_def, Option.some.injEq, exists_eq_left']
  intro rest
  have := read_stream' (rest := rest) (data := stored e (i + 1) (e.fontFile (i + 3)).1) (eol := lit "\n")
    (fontFile_dict_reads (e.fontFile (i + 3)).1.length (e.fontFile (i + 3)).2)
    (by rw [stored_length]; exact streamLength_D (by simp; decide +kernel) (by simp)) white_nl
  simp only [List.append_assoc, nl_endstream] at this ⊢
  rw [this]
  rfl

theorem image_back {e : Env} (hs : Sound e) (d : Doc) (i : Nat) (c : Nat) (info : ImgInfo) (s r : Option Nat) :
    ∃ b, objBytes e d i (.image c info s r) = some b ∧
      Back b (objVal e d i (.image c info s r)) (storedData e d i (.image c info s r)) := by
  have h := imgProps_reads (e.look i) info s r (if info.isMask then (e.look i).smask else (e.look i).data).length
  have hl := streamLength_D (keys_imageDict (e.look i) info s r (if info.isMask then (e.look i).smask else (e.look i).data).length)
    (n := (if info.isMask then (e.look i).smask else (e.look i).data).length) (by simp)
  cases hm : info.isMask
  all_goals
    simp only [hm, Bool.false_eq_true, if_false, if_true] at h hl
    simp only [objBytes, image, hm, Bool.false_eq_true, if_false, if_true, Streams.image, cipher_stored hs, Option.bind_eq_bind, Option.bind_some,
      Option.pure_def, Option.some.injEq, exists_eq_left']
    intro rest
    have := read_stream' (rest := rest) (data := stored e (i + 1) (if info.isMask then (e.look i).smask else (e.look i).data))
      (eol := (if e.key.isSome then lit "\n" else []) ++ lit "\n") h
      (by rw [stored_length]; simpa only [hm, Bool.false_eq_true, if_false, if_true] using hl)
      (white_append (white_if _) white_nl)
    simp only [List.append_assoc, nl_endstream, hm, Bool.false_eq_true, if_false, if_true] at this ⊢
    rw [this]
    simp only [objVal, storedData, streamData, hm, Bool.false_eq_true, if_false, if_true, Option.map_some]

theorem smask_back {e : Env} (hs : Sound e) (d : Doc) (i : Nat) :
    ∃ b, objBytes e d i .imageSMask = some b ∧ Back b (objVal e d i .imageSMask) (storedData e d i .imageSMask) := by
  simp only [objBytes, Streams.smask, cipher_stored hs, Option.bind_eq_bind, Option.bind_some, Option.pure_def, Option.some.injEq, exists_eq_left']
  intro rest
  have := read_stream' (rest := rest) (data := stored e (i + 1) (e.look (owner d (ownsSMask i))).smask)
    (eol := (if e.key.isSome then lit "\n" else []) ++ lit "\n")
    (smaskProps_reads (e.look (owner d (ownsSMask i))) (e.look (owner d (ownsSMask i))).smask.length)
    (by
      rw [stored_length]
      refine streamLength_D ?_ (by simp)
      simp only [imageBase, imageSpace, pngParms, Bool.false_eq_true, if_false, reduceCtorEq, List.append_nil, List.map_append, List.map_cons,
        List.map_nil]
      decide +kernel)
    (white_append (white_if _) white_nl)
  simp only [List.append_assoc, nl_endstream] at this ⊢
  rw [this]
  simp only [objVal, storedData, streamData, Option.map_some, List.append_assoc]

theorem deviceRGB_back {e : Env} (hs : Sound e) (d : Doc) (i : Nat) :
    ∃ b, objBytes e d i .deviceRGB = some b ∧ Back b (objVal e d i .deviceRGB) (storedData e d i .deviceRGB) := by
  simp only [objBytes, Streams.deviceRGB, cipher_stored hs, Option.bind_eq_bind, Option.bind_some, Option.pure_def, Option.some.injEq, exists_eq_left']
  intro rest
  have := read_stream' (rest := rest) (data := stored e (i + 1) (e.look (owner d (ownsPalette i))).pal)
    (eol := (if e.key.isSome then lit "\n" else []))
    (length_dict_reads (e.look (owner d (ownsPalette i))).pal.length)
    (by rw [stored_length]; exact streamLength_D (by simp) (by simp)) (white_if _)
  simp only [List.append_assoc] at this ⊢
  rw [this]
  rfl

theorem group_back (e : Env) (d : Doc) (i : Nat) (es : List Doc.Entry) :
    ∃ b, objBytes e d i (.group es) = some b ∧ Back b (objVal e d i (.group es)) (storedData e d i (.group es)) := by
  simp only [objBytes, Streams.xobjectGroup, Option.some.injEq, exists_eq_left']
  intro rest
  have := read_stream' (rest := rest) (data := e.render es) (eol := []) (groupProps_reads (e.bbox i) (e.render es).length)
    (streamLength_D (by simp only [List.map_cons, List.map_nil]; decide +kernel) (by simp)) white_nil
  simp only [List.append_assoc, List.nil_append] at this ⊢
  rw [this]
  rfl

/-- Every object is written, and what is written reads back as the object it stands for. -/
theorem object_back {e : Env} (hs : Sound e) (d : Doc) (i : Nat) (o : Obj) (hp : Printable e d i o) :
    ∃ b, objBytes e d i o = some b ∧ Back b (objVal e d i o) (storedData e d i o) := by
  have plain : ∀ {b : Bytes}, storedData e d i o = none → Reads b (objVal e d i o) → Back b (objVal e d i o) (storedData e d i o) := by
    intro b h hr rest
    rw [read_plain' hr, h]
  cases o with
  | catalog o => exact ⟨_, rfl, plain rfl (catalog_reads e d i o)⟩
  | pages k c => exact ⟨_, rfl, plain rfl (pages_reads e d i k c)⟩
  | outlines f l c => exact ⟨_, rfl, plain rfl (outlines_reads e d i f l c)⟩
  | procset fs cs xs gs => exact ⟨_, rfl, plain rfl (procset_reads e d i fs cs xs gs hp)⟩
  | page cs ls r => exact ⟨_, rfl, plain rfl (page_reads e d i cs ls r hp)⟩
  | content es => exact content_back hs d i es
  | unicodeMap => exact unicodeMap_back hs d i
  | fontFile => exact fontFile_back hs d i
  | fontDesc f => exact ⟨_, rfl, plain rfl (fontDesc_reads e d i f hp)⟩
  | cidFont f => exact ⟨_, rfl, plain rfl (cidFont_reads e d i f hp)⟩
  | font f a b c u => exact ⟨_, rfl, plain rfl (font_reads e d i f _ _ c u hp)⟩
  | image c info s r => exact image_back hs d i c info s r
  | imageSMask => exact smask_back hs d i
  | deviceRGB => exact deviceRGB_back hs d i
  | extGS k => exact ⟨_, rfl, plain rfl (extGS_reads e d i k)⟩
  | softMask g => exact ⟨_, rfl, plain rfl (softMask_reads e d i g)⟩
  | group es => exact group_back e d i es
  | annot a =>
    cases a with
    | none =>
      have hc := cipher_stored hs (i + 1) (e.url i)
      refine ⟨_, by simp only [objBytes, externalLink, hc, Option.bind_eq_bind, Option.bind_some]; rfl, plain rfl (external_reads e d i _ ?_ hc)⟩
      simp only [externalLink, hc, Option.bind_eq_bind, Option.bind_some]; rfl
    | some a => exact ⟨_, rfl, plain rfl (internal_reads e d i a hp)⟩
  | colorSpace n k => exact ⟨_, rfl, plain rfl (colorSpace_reads e d i n _ hp)⟩
  | outline t de p pr ne => exact ⟨_, rfl, plain rfl (outline_reads e d i t de p pr ne hp)⟩
  | imported => exact absurd hp id
  | encryption => exact ⟨_, rfl, plain rfl (encryption_reads e d i)⟩

end Verif.PdfObject
