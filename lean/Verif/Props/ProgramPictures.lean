import Verif.Lemmas.Pictures.Same
import Verif.Props.ProgramFigures
/- C68: the pictures of a program, in the file. -/
set_option maxRecDepth 10000
namespace Verif.Props
open Doc Objects ObjectValue PdfObject FileReader Viewer Pictures

/-- The pictures of a program are the files `given`: calls are given what parsing gives, and image objects keep it. -/
structure Given (e : Objects.Env) (prog : List Program.Call) (d : Doc) (k : Codec) (given : Nat → Bytes) : Prop where
  images : ∀ call ∈ prog, ∀ img ∈ Program.imagesOf call, img.parsed = parsed k (given img.id)
  look : ∀ i id info a g, d.objs[i]? = some (.image id info a g) → ∀ l f, parseImg k (given id) = some (l, f) → e.look i = l

/-- The flags of an image object, from the calls. -/
theorem image_flags {prot : Bool} {prog : List Program.Call} {cod : Codec} {given : Nat → Bytes}
    (hi : ∀ k ∈ prog, ∀ img ∈ Program.imagesOf k, img.parsed = parsed cod (given img.id)) :
    ∀ id m a g, Obj.image id m a g ∈ (exec (start prot) (Program.docOps 1 prog ++ [.compile])).idents →
      parsed cod (given id) = some (m.alpha, m.indexed) ∧ (m.split = true → Program.DrawnMasked prog id) := by
  intro id m a g hm
  refine image_ids (M := fun m id => parsed cod (given id) = some (m.alpha, m.indexed) ∧ (m.split = true → Program.DrawnMasked prog id))
    (Program.docOps 1 prog ++ [.compile]) (start prot) (reachable_base ⟨prot, [], rfl⟩) ?_ ?_ id m a g hm
  · intro op hop m id hm
    simp only [List.mem_append, List.mem_singleton] at hop
    rcases hop with hop | rfl
    · rcases makes_call hop hm with ⟨img, i, a, x, h1, rfl, h3, rfl⟩ | ⟨img, i, tr, mask, a, x, h1, rfl, h3, rfl⟩ |
        ⟨img, i, tr, mi, it, t, a, x, h1, rfl, h3, rfl⟩
      · exact ⟨by rw [← hi _ h1 img (by simp [Program.imagesOf]), h3], by simp⟩
      · refine ⟨by rw [← hi _ h1 img (by simp [Program.imagesOf]), h3], fun hs => ?_⟩
        obtain ⟨m, rfl⟩ := Option.isSome_iff_exists.1 hs
        exact ⟨img, i, tr, m, h1, rfl⟩
      · exact ⟨by rw [← hi _ h1 mi (by simp [Program.imagesOf]), h3], by simp⟩
    · simp [Makes] at hm
  · intro id m a g hm
    simp [Doc.idents, start, Obj.ident] at hm

/-- An image object: the look of its file, its flags, and how the calls use it. -/
theorem image_from {e : Objects.Env} {ce : Content.Env} {prot : Bool} {ml mt : ℚ} {prog : List Program.Call} {s : Program.St}
    {d : Doc} {c : Decoder} (h : Output e ce prot ml mt prog s d c) {k : Codec} {given : Nat → Bytes} (hgiven : Given e prog d k given)
    {i id : Nat} {info : ImgInfo} {a g : Option Nat} (ho : d.objs[i]? = some (.image id info a g)) :
    parseImg k (given id) = some (e.look i, (info.alpha, info.indexed)) ∧
      (info.isMask = true → Program.AsMask prog id) ∧ (info.isMask = false → Program.Drawn prog id) ∧ (info.split = true → Program.DrawnMasked prog id) := by
  have hmem : Obj.image id info none none ∈ (exec (start prot) (Program.docOps 1 prog ++ [.compile])).idents := by
    rw [← h.doc]
    have := List.mem_of_getElem? (ident_at ho)
    simpa [Obj.ident] using this
  obtain ⟨f1, f2⟩ := image_flags hgiven.images _ _ _ _ hmem
  obtain ⟨m1, m2⟩ := ids_of_prog _ _ _ _ hmem
  obtain ⟨⟨l, f⟩, p1, rfl⟩ := Option.map_eq_some_iff.1 f1
  exact ⟨by rw [hgiven.look i id info a g ho _ _ p1]; exact p1, m1, m2, f2⟩

/-- An image object of a good PNG file. -/
theorem image_kept {e : Objects.Env} {ce : Content.Env} {prot : Bool} {ml mt : ℚ} {prog : List Program.Call} {s : Program.St}
    {d : Doc} {c : Decoder} (h : Output e ce prot ml mt prog s d c) {k : Codec} (hk : k.inflate = c.inflate)
    (hz : ∀ x, c.inflate (k.deflate x) = some x) (hne : ∀ x, k.deflate x ≠ []) {i id : Nat} {info : ImgInfo} {a g : Option Nat}
    (ho : d.objs[i]? = some (.image id info a g)) (hden : Denotes d.xobjNames (i + 1) (i + 1)) {p : Png} (hg : p.Good c.inflate)
    (hp : pngLook k p.bytes = some (e.look i, (info.alpha, info.indexed))) :
    Shown e prot (Program.docOps 1 prog) d c i id info a g ∧ Kept c.inflate p (e.look i) (info.alpha, info.indexed) := by
  obtain ⟨pi, p1, p2⟩ := good_parse hz hne hg
  rw [pngLook, hk, p1] at hp
  simp only [Option.some.injEq, Prod.mk.injEq] at hp
  rw [hp.1, hp.2] at p2
  exact ⟨⟨h.compiled, h.md5, h.key, ho, hden, p2.jpeg⟩, p2⟩

/-- The pixels of an image object, from its PNG file. -/
theorem image_pixels {e : Objects.Env} {ce : Content.Env} {prot : Bool} {ml mt : ℚ} {prog : List Program.Call} {s : Program.St}
    {d : Doc} {c : Decoder} (h : Output e ce prot ml mt prog s d c) {k : Codec} (hk : k.inflate = c.inflate)
    (hz : ∀ x, c.inflate (k.deflate x) = some x) (hne : ∀ x, k.deflate x ≠ []) {i id : Nat} {info : ImgInfo} {a g : Option Nat}
    (ho : d.objs[i]? = some (.image id info a g)) (hden : Denotes d.xobjNames (i + 1) (i + 1)) {p : Png}
    (hp : pngLook k p.bytes = some (e.look i, (info.alpha, info.indexed)))
    (hu : (info.isMask = true → Program.AsMask prog id) ∧ (info.isMask = false → Program.Drawn prog id) ∧ (info.split = true → Program.DrawnMasked prog id)) :
    PixelsOf c (file e d) prog p id (i + 1) := by
  intro hg
  obtain ⟨m1, m2, m3⟩ := hu
  obtain ⟨q, hk⟩ := image_kept h hk hz hne ho hden hg hp
  have hmask : ¬ Program.AsMask prog id → info.isMask = false := fun hn => by
    cases hm : info.isMask with
    | false => rfl
    | true => exact absurd (m1 hm) hn
  refine ⟨fun hn => q.sameColours hg hk (hmask hn), fun hn hd => q.sameOpacity hg hk (hmask hn) ?_, fun hn h4 => q.opacityAsGrey hg hk ?_ h4⟩
  · cases hs : info.split with
    | false => rfl
    | true => exact absurd (m3 hs) hd
  · cases hm : info.isMask with
    | true => rfl
    | false => exact absurd (m2 hm) hn

/-- **C68** As C60, with the pictures given as PNG files: on every page a viewer finds, it paints the figures the calls ask for, and an
image it paints has, pixel by pixel, the size, the colours and the opacity of the PNG file given (at most 8 bits per sample, not
interlaced; grey, RGB, palette, with and without alpha, with a transparent colour), and a mask has its opacity in shades of grey.
`k.deflate` is the compression gopdf uses for the two streams it makes of a file with alpha. -/
theorem program_pictures {e : Objects.Env} {ce : Content.Env} {prot : Bool} {ml mt : ℚ} {prog : List Program.Call} {s : Program.St}
    {d : Doc} {c : Decoder} (h : Output e ce prot ml mt prog s d c) (wd : Paint.Widths) {cod : Codec} (hin : cod.inflate = c.inflate)
    (hz : ∀ x, c.inflate (cod.deflate x) = some x) (hne : ∀ x, cod.deflate x ≠ []) {given : Nat → Bytes} (hgiven : Given e prog d cod given)
    {cv : Canvas.Canvas} (hcv : (Canvas.blank 0).calls ce (Program.requests ce (Program.start prot ml mt) prog) = some cv)
    (hup : ∀ k ∈ prog, Program.Upright k) (htext : ∀ col, Program.Call.plain (.setTextColour col) ∉ prog)
    (hsharp : ∀ k ∈ prog, ∀ t ∈ Program.settingsOf k, t.sharp) (hkey : ∀ id, Program.AsMask prog id → c.key = none) :
    ∃ pages, view c (file e d) = some pages ∧ pages.length = prog.countP Program.isPage ∧
      ∀ (k : Nat) page o, pages[k]? = some (page, o) → ∃ sh figs exact r r', cv.sheets[k + 1]? = some sh ∧
        List.Forall₂ ContentReader.NearOp o exact ∧ Paint.run wd {} exact = some r ∧
        Paint.run wd {} o = some r' ∧ r'.marks.map ContentReader.kindOf = r.marks.map ContentReader.kindOf ∧
        figs.Sublist (Canvas.figures r.marks) ∧
        ((∀ x ∈ Program.requests ce (Program.start prot ml mt) prog, Canvas.Undecorated x) → Canvas.figures r.marks = figs) ∧
        figs.map Program.bare = sh.figs.map Program.bare ∧
        List.Forall₂ (Scene.Shows { decoder := c, file := file e d, page, prog, env := ce, widths := wd, csName := e.csName, picture := HasPixels cod c (file e d) prog given })
          figs (Program.used ce (k + 1) {} 0 (Program.start prot ml mt) prog) := by
  refine figures_with h wd _ (fun i id info a g ho hden => ?_) hcv hup htext hsharp hkey
  rintro p hp ⟨hd, h1, h2⟩
  obtain ⟨q, hu⟩ := image_from h hgiven ho
  refine image_pixels h hin hz hne ho hden ?_ hu
  rw [hp] at q
  simpa [parseImg, parseFlat, h1, h2] using q

/-- The dictionary of a JPEG file. -/
def jpegDict (w h n : Nat) (sp : Objects.Space) : List (String × Val) :=
  [("Type", N "XObject"), ("Subtype", N "Image"), ("Width", ObjectValue.nat w), ("Height", ObjectValue.nat h), ("ColorSpace", .name sp.bytes)] ++
    ((if sp = .cmyk then [("Decode", .arr ([1, 0, 1, 0, 1, 0, 1, 0].map ObjectValue.nat))] else []) ++
      [("BitsPerComponent", ObjectValue.nat 8), ("Filter", N "DCTDecode"), ("Length", ObjectValue.nat n)])

theorem jpegDict_keys (w h n : Nat) (sp : Objects.Space) : ((jpegDict w h n sp).map fun p => lit p.1).Nodup := by
  cases sp <;> simp only [jpegDict, reduceCtorEq, if_true, if_false, List.map_append, List.map_cons, List.map_nil, List.cons_append, List.nil_append] <;> decide +kernel

theorem jpegDict_none (w h n : Nat) (sp : Objects.Space) {k : String} (hk : k ∉ ["Type", "Subtype", "Width", "Height", "ColorSpace", "Decode", "BitsPerComponent", "Filter", "Length"])
    (hl : ∀ x ∈ ["Type", "Subtype", "Width", "Height", "ColorSpace", "Decode", "BitsPerComponent", "Filter", "Length"], lit x = lit k → x = k) :
    (D (jpegDict w h n sp)).get (lit k) = none := by
  refine get_none fun p hp hpk => hk ?_
  have : p.1 ∈ ["Type", "Subtype", "Width", "Height", "ColorSpace", "Decode", "BitsPerComponent", "Filter", "Length"] := by
    replace hp := List.mem_map_of_mem (f := Prod.fst) hp
    cases sp <;> simp [jpegDict] at hp <;> simp only [List.mem_cons, List.not_mem_nil, or_false] <;> grind
  rw [← hl _ this hpk]
  exact this

/-- The image object of a JPEG file. -/
theorem image_jpeg {e : Objects.Env} {ce : Content.Env} {prot : Bool} {ml mt : ℚ} {prog : List Program.Call} {s : Program.St}
    {d : Doc} {c : Decoder} (h : Output e ce prot ml mt prog s d c) {i id : Nat} {info : ImgInfo} {a g : Option Nat}
    (ho : d.objs[i]? = some (.image id info a g)) {b : Bytes} {hd : Header} (hm : info.isMask = false)
    (hp : parseJpg hd b = some (e.look i, (info.alpha, info.indexed))) : IsJpeg c (file e d) b hd (i + 1) := by
  obtain ⟨sp, s1, s2⟩ := Option.map_eq_some_iff.1 hp
  rw [Prod.mk.injEq] at s2
  obtain ⟨hl, hf⟩ := s2
  rw [Prod.mk.injEq] at hf
  obtain ⟨ha, hx⟩ := hf
  have hat : d.objAt (i + 1) = some (.image id info a g) := by simpa [Doc.objAt] using ho
  have hdict : dict e i info a g = jpegDict hd.width hd.height b.length sp := by
    cases sp <;> simp [dict, imageDict, imageBase, imageSpace, jpegDict, ← hl, hm, ← ha, ← hx, Look.filter, N]
  obtain ⟨stored, o1, o2⟩ : ∃ stored, object (file e d) (i + 1) = some (D (jpegDict hd.width hd.height b.length sp), some stored) ∧
      c.decrypt (i + 1) stored = b := by
    rw [← hdict]
    refine ⟨_, h.compiled.object hat trivial, ?_⟩
    simp only [decrypt_stored h.md5 h.key, Nat.add_sub_cancel, hm, ← hl]
    simp
  have hk := jpegDict_keys hd.width hd.height b.length sp
  refine ⟨by simp [imageData, o1, o2], ?_, _, stored, _, o1, (?_ : jpegSpace hd.model = some (if sp = .cmyk then "DeviceCMYK" else if sp = .gray then "DeviceGray" else "DeviceRGB")), ?_⟩
  · have h1 : natAt (D (jpegDict hd.width hd.height b.length sp)) "Width" = some hd.width := natAt_mem hk (by simp [jpegDict])
    have h2 : natAt (D (jpegDict hd.width hd.height b.length sp)) "Height" = some hd.height := natAt_mem hk (by simp [jpegDict])
    simp [pdfSize, o1, h1, h2]
  · revert s1
    cases hd.model <;> simp [spaceOfModel, jpegSpace] <;> rintro rfl <;> simp
  refine ⟨get_D_of_mem hk (by simp [jpegDict, N]), get_D_of_mem hk (by simp [jpegDict, N]), get_D_of_mem hk ?_, natAt_mem hk (by simp [jpegDict]),
    jpegDict_none _ _ _ _ (by decide) (by decide), jpegDict_none _ _ _ _ (by decide) (by decide), jpegDict_none _ _ _ _ (by decide) (by decide), ?_⟩
  · cases sp <;> simp [jpegDict, Objects.Space.bytes]
  · have hc : hd.model = .cmyk ↔ sp = .cmyk := by
      revert s1
      cases hd.model <;> simp [spaceOfModel] <;> rintro rfl <;> simp
    by_cases hcm : sp = .cmyk
    · rw [if_pos (hc.2 hcm)]
      exact get_D_of_mem hk (by simp [jpegDict, hcm, ObjectValue.nat])
    · rw [if_neg (fun x => hcm (hc.1 x))]
      refine get_none fun p hp => ?_
      simp only [jpegDict, hcm, if_false, List.mem_append, List.mem_cons, List.not_mem_nil, or_false, false_or] at hp
      rcases hp with (rfl | rfl | rfl | rfl | rfl) | (rfl | rfl | rfl) <;> (dsimp only; decide)

/-- **C72** As C60, with the pictures given as JPEG and GIF files: an image a viewer paints for a JPEG file is that file, byte by byte, with
the size and the colour space of its header; for a GIF file it has, pixel by pixel, the colours and the opacity of the PNG file Go's
image packages convert it to (as C68). -/
theorem program_files {e : Objects.Env} {ce : Content.Env} {prot : Bool} {ml mt : ℚ} {prog : List Program.Call} {s : Program.St}
    {d : Doc} {c : Decoder} (h : Output e ce prot ml mt prog s d c) (wd : Paint.Widths) {cod : Codec} (hin : cod.inflate = c.inflate)
    (hz : ∀ x, c.inflate (cod.deflate x) = some x) (hne : ∀ x, cod.deflate x ≠ []) {given : Nat → Bytes} (hgiven : Given e prog d cod given)
    {cv : Canvas.Canvas} (hcv : (Canvas.blank 0).calls ce (Program.requests ce (Program.start prot ml mt) prog) = some cv)
    (hup : ∀ k ∈ prog, Program.Upright k) (htext : ∀ col, Program.Call.plain (.setTextColour col) ∉ prog)
    (hsharp : ∀ k ∈ prog, ∀ t ∈ Program.settingsOf k, t.sharp) (hkey : ∀ id, Program.AsMask prog id → c.key = none) :
    ∃ pages, view c (file e d) = some pages ∧ pages.length = prog.countP Program.isPage ∧
      ∀ (k : Nat) page o, pages[k]? = some (page, o) → ∃ sh figs exact r r', cv.sheets[k + 1]? = some sh ∧
        List.Forall₂ ContentReader.NearOp o exact ∧ Paint.run wd {} exact = some r ∧
        Paint.run wd {} o = some r' ∧ r'.marks.map ContentReader.kindOf = r.marks.map ContentReader.kindOf ∧
        figs.Sublist (Canvas.figures r.marks) ∧
        ((∀ x ∈ Program.requests ce (Program.start prot ml mt) prog, Canvas.Undecorated x) → Canvas.figures r.marks = figs) ∧
        figs.map Program.bare = sh.figs.map Program.bare ∧
        List.Forall₂ (Scene.Shows { decoder := c, file := file e d, page, prog, env := ce, widths := wd, csName := e.csName, picture := HasFile cod c (file e d) prog given })
          figs (Program.used ce (k + 1) {} 0 (Program.start prot ml mt) prog) := by
  refine figures_with h wd _ (fun i id info a g ho hden => ?_) hcv hup htext hsharp hkey
  obtain ⟨q, hu⟩ := image_from h hgiven ho
  refine ⟨fun hd h1 h2 hn => ?_, ?_⟩
  · refine image_jpeg h ho ?_ (by simpa [parseImg, parseFlat, h1, h2] using q)
    cases hm : info.isMask with
    | false => rfl
    | true => exact absurd (hu.1 hm) hn
  · rintro p ⟨hd, h1, h2⟩ h3 ⟨hd', h4, h5⟩
    refine image_pixels h hin hz hne ho hden ?_ hu
    simpa [parseImg, parseFlat, h1, h2, h3, h4, h5] using q

/-- **C68** fails for opaque pictures used as masks: their image has no data at all. -/
theorem opaque_mask_empty_fails {e : Objects.Env} {ce : Content.Env} {prot : Bool} {ml mt : ℚ} {prog : List Program.Call} {s : Program.St}
    {d : Doc} {c : Decoder} (h : Output e ce prot ml mt prog s d c) {cod : Codec} (hin : cod.inflate = c.inflate) (hz : ∀ x, c.inflate (cod.deflate x) = some x)
    (hne : ∀ x, cod.deflate x ≠ []) {given : Nat → Bytes} (hgiven : Given e prog d cod given) {i id : Nat} {info : ImgInfo} {a g : Option Nat}
    (ho : d.objs[i]? = some (.image id info a g)) (hden : Denotes d.xobjNames (i + 1) (i + 1)) {p : Png} (hp : given id = p.bytes)
    (hf : formatIs cod p.bytes .png) (hg : p.Good c.inflate)
    (hct : p.ct < 4) (hn : ¬ Program.Drawn prog id) : imageData c (file e d) (i + 1) = some [] := by
  obtain ⟨hd, h1, h2⟩ := hf
  obtain ⟨qq, m1, m2, m3⟩ := image_from h hgiven ho
  rw [hp] at qq
  obtain ⟨q, hk⟩ := image_kept h hin hz hne ho hden hg (by simpa [parseImg, parseFlat, h1, h2] using qq)
  have hm : info.isMask = true := by
    cases hm : info.isMask with
    | true => rfl
    | false => exact absurd (m2 hm) hn
  have := (image_in_file q.comp c q.md5 q.key (i + 1) (i + 1) _ _ _ _ q.named q.at).1
  rw [hm, if_pos rfl, Nat.add_sub_cancel] at this
  rw [this, hk.plain hct]

/-- **C72** fails for JPEG files used as masks: nothing of the file is in the image. -/
theorem jpeg_mask_empty_fails {e : Objects.Env} {ce : Content.Env} {prot : Bool} {ml mt : ℚ} {prog : List Program.Call} {s : Program.St}
    {d : Doc} {c : Decoder} (h : Output e ce prot ml mt prog s d c) {cod : Codec} {given : Nat → Bytes} (hgiven : Given e prog d cod given)
    {i id : Nat} {info : ImgInfo} {a g : Option Nat} (ho : d.objs[i]? = some (.image id info a g)) (hden : Denotes d.xobjNames (i + 1) (i + 1))
    (hf : formatIs cod (given id) .jpeg) (hn : ¬ Program.Drawn prog id) : imageData c (file e d) (i + 1) = some [] := by
  obtain ⟨hd, h1, h2⟩ := hf
  obtain ⟨q, m1, m2, m3⟩ := image_from h hgiven ho
  have hm : info.isMask = true := by
    cases hm : info.isMask with
    | true => rfl
    | false => exact absurd (m2 hm) hn
  have hat : d.objAt (i + 1) = some (.image id info a g) := by simpa [Doc.objAt] using ho
  have := (image_in_file h.compiled c h.md5 h.key (i + 1) (i + 1) _ _ _ _ hden hat).1
  rw [hm, if_pos rfl, Nat.add_sub_cancel] at this
  rw [this]
  have q' : parseJpg hd (given id) = some (e.look i, (info.alpha, info.indexed)) := by simpa [parseImg, parseFlat, h1, h2] using q
  obtain ⟨sp, s1, s2⟩ := Option.map_eq_some_iff.1 q'
  rw [Prod.mk.injEq] at s2
  rw [← s2.1]

end Verif.Props
