import Verif.Lemmas.Objects.Refs
import Verif.Props.DocRefs
import Verif.Props.DocShared
import Verif.Props.FilePages
/- C55: references, fonts and images in the file. -/
set_option maxRecDepth 10000
namespace Verif.Props
open Doc Objects ObjectValue PdfObject FileReader

theorem trailer_refs (t : Compile.Trailer) (k : Nat) : (trailerVal t k).refs = 1 :: t.encrypt.toList := by
  have hi : ∀ i : Info.PdfInfo, (infoVal i).refs = [] := by
    intro i
    have ht : ∀ k s, ((textEntry k s).flatMap fun p => p.2.refs) = [] := by
      intro k s; unfold textEntry; split <;> simp
    unfold infoVal
    rw [refs_D]
    simp only [List.flatMap_append, ht, List.nil_append]
    cases i.creationDate <;> simp
  unfold trailerVal
  rw [refs_D]
  cases t.encrypt <;> cases t.info <;> simp [hi]

/-- **C55** No reference in the file dangles: starting at the trailer and following every reference in every dictionary and
array, a reader finds an object at each step — for every history compiled once in which nothing was imported, links lead to
anchors set on a page, masks have no palette and bookmarks were added on a page. -/
theorem references_resolve (e : Env) (he : Sound e) (hn : PlainNames e) (hi : ∀ i ∈ e.info, InfoOK i) (ht : e.templates = [])
    (prot : Bool) (h : List Op) (hc : Op.compile ∉ h)
    (hlen : (file e (exec (start prot) (h ++ [.compile]))).length < 10 ^ 10)
    (hw : ∀ o ∈ (exec (start prot) (h ++ [.compile])).objs, Written (exec (start prot) (h ++ [.compile])) o)
    (hmask : ∀ id m s r, Obj.image id m s r ∈ (exec (start prot) (h ++ [.compile])).objs → ¬ (m.isMask = true ∧ m.indexed = true))
    (hanchor : ∀ a p y, (a, (p, y)) ∈ (exec (start prot) (h ++ [.compile])).anchors → p ≠ none)
    (hout : ∀ t de p pr ne, Obj.outline t de p pr ne ∈ (exec (start prot) (h ++ [.compile])).objs → de ≠ 0)
    (n : Nat) (hr : Reaches (file e (exec (start prot) (h ++ [.compile]))) n) :
    ∃ r, object (file e (exec (start prot) (h ++ [.compile]))) n = some r := by
  have hreach : Reachable (exec (start prot) (h ++ [.compile])) := ⟨prot, _, rfl⟩
  have enc := (encrypt_reference prot h)
  have henc := (exec_enc prot (h ++ [.compile])).1
  have at_ := fun {n : Nat} {o : Obj} => object_at e he hn prot h hc hlen (n := n) (o := o)
  have hpc := fun {i : Nat} {o : Obj} => printable (prot := prot) hc hn (i := i) (o := o)
  generalize exec (start prot) (h ++ [.compile]) = d at *
  have objs_of : ∀ {n : Nat} {o : Obj}, d.objAt n = some o → d.objs[n - 1]? = some o := by
    intro n o ho
    unfold Doc.objAt at ho
    split at ho
    · simp at ho
    · exact ho
  have look : ∀ {n : Nat} {o : Obj}, d.objAt n = some o → object (file e d) n = some (objVal e d (n - 1) o, storedData e d (n - 1) o) :=
    fun ho => at_ ho (hw _ (List.mem_of_getElem? (objs_of ho)))
  have key : FromRoot d n ∨ (d.prot = true ∧ n = d.encId) := by
    induction hr with
    | trailer h1 h2 =>
      rw [trailer_reads_back e d hi hlen, Option.some.injEq] at h1
      subst h1
      rw [trailer_refs, List.mem_cons] at h2
      rcases h2 with rfl | h2
      · exact Or.inl .root
      · right
        simp only [trailerOf] at h2
        split at h2
        · next hp => exact ⟨hp, by simpa using h2⟩
        · simp at h2
    | @step n m r _ h1 h2 ih =>
      have step_ : ∀ o, d.objAt n = some o → (∀ x ∈ Doc.refs d o, FromRoot d x.num) → FromRoot d m := by
        intro o ho hf
        rw [look ho, Option.some.injEq] at h1
        subst h1
        have hpr := hpc (objs_of ho) (hw _ (List.mem_of_getElem? (objs_of ho)))
        have := (objVal_refs e d (n - 1) o (by rintro cs ls r rfl; exact hpr) m).1 h2
        rcases this with h3 | h3
        · obtain ⟨x, hx, rfl⟩ := List.mem_map.1 h3
          exact hf x hx
        · cases o <;> simp [extraRefs, ht] at h3
      rcases ih with hf | ⟨hp, rfl⟩
      · obtain ⟨o, ho, _⟩ := no_dangling d hreach hmask hanchor hout n hf
        exact Or.inl (step_ o ho fun x hx => .step hf ho hx)
      · have ho := enc.1 (henc ▸ hp)
        exact Or.inl (step_ _ ho (by simp [Doc.refs]))
  rcases key with hf | ⟨hp, rfl⟩
  · obtain ⟨o, ho, _⟩ := no_dangling d hreach hmask hanchor hout n hf
    exact ⟨_, look ho⟩
  · exact ⟨_, look (enc.1 (henc ▸ hp))⟩

/-- A document compiled once into a file. -/
structure Compiled (e : Env) (prot : Bool) (h : List Op) (d : Doc) : Prop where
  doc : d = exec (start prot) (h ++ [.compile])
  once : Op.compile ∉ h
  sound : Sound e
  names : PlainNames e
  size : (file e d).length < 10 ^ 10

theorem Compiled.reachable {e : Env} {prot : Bool} {h : List Op} {d : Doc} (c : Compiled e prot h d) : Reachable d := ⟨prot, _, c.doc⟩

theorem Compiled.object {e : Env} {prot : Bool} {h : List Op} {d : Doc} (c : Compiled e prot h d) {n : Nat} {o : Obj} (ho : d.objAt n = some o)
    (hw : Written d o) : object (file e d) n = some (objVal e d (n - 1) o, storedData e d (n - 1) o) := by
  have hl := c.size
  obtain rfl := c.doc
  exact object_at e c.sound c.names prot h c.once hl ho hw

/-- **C55** A resource name of a page means in the file what the document made it mean: fonts, colour spaces, images and
graphics states. -/
theorem resources_in_file {e : Env} {prot : Bool} {h : List Op} {d : Doc} (c : Compiled e prot h d) (n : Nat) (cs ls : List Nat) (r : Nat)
    (ho : d.objAt n = some (.page cs ls r)) :
    ∃ page data, object (file e d) n = some (page, data) ∧
      (∀ k m, Denotes d.fontNames k m → resource (file e d) page "Font" (lit "F" ++ dec k) = some m) ∧
      (∀ k m, Denotes d.csNames k m → resource (file e d) page "ColorSpace" (lit "CS" ++ dec k) = some m) ∧
      (∀ k m, Denotes d.xobjNames k m → resource (file e d) page "XObject" (lit "I" ++ dec k) = some m) ∧
      (∀ k m, Denotes d.gsNames k m → resource (file e d) page "ExtGState" (lit "GS" ++ dec k) = some m) := by
  obtain ⟨rfl, h4⟩ := page_resources d c.reachable n cs ls r ho
  obtain ⟨fs, cs', xs, gs, hp⟩ : ∃ fs cs xs gs, d.objAt 4 = some (.procset fs cs xs gs) := by
    cases hq : d.objAt 4 with
    | none => rw [hq] at h4; simp at h4
    | some o => rw [hq] at h4; cases o <;> simp [Obj.kind] at h4; exact ⟨_, _, _, _, rfl⟩
  have hp' : d.objs[procIdx]? = some (.procset fs cs' xs gs) := by
    show d.objs[3]? = _
    simpa [Doc.objAt] using hp
  obtain ⟨g1, g2, g3, g4⟩ := get_proc e d 3 fs cs' xs gs
  have e1 : d.fontNames = fs.map fun r => (r.count + 1, r.index + 1) := by simp only [Doc.fontNames, Doc.relFonts, hp']
  have e2 : d.csNames = cs'.map fun r => (r.count + 1, r.index + 1) := by simp only [Doc.csNames, Doc.relCSs, hp']
  have e3 : d.xobjNames = xs.map fun i => (i + 1, i + 1) := by simp only [Doc.xobjNames, Doc.relXobjs, hp']
  have e4 : d.gsNames = gs.map fun i => (i + 1, i + 1) := by simp only [Doc.gsNames, Doc.relGSs, hp']
  have hobj := c.object hp trivial
  refine ⟨_, _, c.object ho trivial, ?_, ?_, ?_, ?_⟩
  all_goals
    intro k m hd
    simp only [FileReader.resource, get_page_resources, Option.bind_some, refOf, hobj, g1, g2, g3, g4]
  · have := get_named "F" (e1 ▸ hd) []
    rw [List.append_nil] at this
    rw [this]; rfl
  · have := get_named "CS" (e2 ▸ hd) []
    rw [List.append_nil] at this
    rw [this]; rfl
  · rw [get_named "I" (e3 ▸ hd)]; rfl
  · have := get_named "GS" (e4 ▸ hd) []
    rw [List.append_nil] at this
    rw [this]; rfl

/-- **C55** Every image, graphics state and colour space named by what is drawn on a page is found in the file through that
page's resources, and is the object the document holds under that number. -/
theorem drawing_resolves {e : Env} {prot : Bool} {h : List Op} {d : Doc} (c : Compiled e prot h d) (n : Nat) (cs ls : List Nat) (r x : Nat)
    (ho : d.objAt n = some (.page cs ls r)) (es : List Doc.Entry) (hx : d.objAt x = some (.content es)) (en : Doc.Entry) (hen : en ∈ es) :
    ∃ page data, object (file e d) n = some (page, data) ∧
      (∀ k, en.xobj = some k → ∃ m id info s g, resource (file e d) page "XObject" (lit "I" ++ dec k) = some m ∧
        d.objAt m = some (.image id info s g) ∧ object (file e d) m = some (objVal e d (m - 1) (.image id info s g), storedData e d (m - 1) (.image id info s g))) ∧
      (∀ k ∈ en.gs, ∃ m g, resource (file e d) page "ExtGState" (lit "GS" ++ dec k) = some m ∧
        d.objAt m = some (.extGS g) ∧ object (file e d) m = some (objVal e d (m - 1) (.extGS g), none)) ∧
      (∀ k, en.cs = some k → ∃ m name count, resource (file e d) page "ColorSpace" (lit "CS" ++ dec k) = some m ∧
        d.objAt m = some (.colorSpace name count) ∧ object (file e d) m = some (separation (e.csName name) (e.ink (m - 1)), none)) := by
  obtain ⟨page, data, h1, _, h2, h3, h4⟩ := resources_in_file c n cs ls r ho
  obtain ⟨r1, r2, r3⟩ := resource_names_denote d c.reachable x _ hx en ⟨es, Or.inl rfl, hen⟩
  refine ⟨page, data, h1, ?_, ?_, ?_⟩
  · intro k hk
    obtain ⟨m, q1, q2⟩ := r1 k hk
    cases ho : d.objAt m with
    | none => rw [ho] at q2; simp at q2
    | some o =>
      rw [ho] at q2
      cases o <;> simp [Obj.kind] at q2
      next id info s g => exact ⟨m, id, info, s, g, h3 k m q1, ho, c.object ho trivial⟩
  · intro k hk
    obtain ⟨m, q1, q2⟩ := r2 k hk
    cases ho : d.objAt m with
    | none => rw [ho] at q2; simp at q2
    | some o =>
      rw [ho] at q2
      cases o <;> simp [Obj.kind] at q2
      next g => exact ⟨m, g, h4 k m q1, ho, c.object ho trivial⟩
  · intro k hk
    obtain ⟨m, q1, q2⟩ := r3 k hk
    cases ho : d.objAt m with
    | none => rw [ho] at q2; simp at q2
    | some o =>
      rw [ho] at q2
      cases o <;> simp [Obj.kind] at q2
      next nm ct => exact ⟨m, nm, ct, h2 k m q1, ho, c.object ho trivial⟩

theorem objAt_ident {d : Doc} {i : Nat} {o : Obj} (h : d.idents[i]? = some o) : ∃ x, d.objAt (i + 1) = some x ∧ x.ident = o := by
  unfold Doc.idents at h
  rw [List.getElem?_map] at h
  obtain ⟨x, h1, h2⟩ := Option.map_eq_some_iff.1 h
  exact ⟨x, by simp [Doc.objAt, h1], h2⟩

/-- **C55** Every font of the file is complete: following `/DescendantFonts`, `/FontDescriptor` and `/FontFile2` from the font
object number `n` gives the font program embedded for it, `/ToUnicode` its character map and `/W` its widths: those of this
font and of no other. -/
theorem font_in_file {e : Env} {prot : Bool} {h : List Op} {d : Doc} (c : Compiled e prot h d) (dec : Decoder) (hm : dec.md5 = e.md5)
    (hk : dec.key = e.key) (n f s k cid uni : Nat) (ho : d.objAt n = some (.font f s k cid uni)) :
    fontProgram dec (file e d) n = dec.inflate (e.fontFile (n - 1)).1 ∧ toUnicode dec (file e d) n = some (e.cmap (n - 1)) ∧
    fontWidths (file e d) n = some (e.widths (n - 1)) := by
  have hn := objAt_pos ho
  have hi : d.objs[n - 1]? = some (.font f s k cid uni) := by
    unfold Doc.objAt at ho
    split at ho
    · simp at ho
    · exact ho
  obtain ⟨u, e0, b1, b2, b3, b4, f', s', c', b5⟩ := reachable_parts c.reachable (n - 1) _ (ident_at hi) (by rfl)
  simp only [Obj.ident, place] at e0
  have b5' : Obj.ident (.font f s k cid uni) = .font f' s' c' (u + 3) u := by
    have := ident_at hi
    rw [e0, b5] at this
    exact (Option.some.inj this).symm
  simp only [Obj.ident, Obj.font.injEq] at b5'
  obtain ⟨_, _, _, rfl, rfl⟩ := b5'
  obtain ⟨x1, a1, i1⟩ := objAt_ident b1
  obtain ⟨x2, a2, i2⟩ := objAt_ident b2
  obtain ⟨x3, a3, i3⟩ := objAt_ident b3
  obtain ⟨x4, a4, i4⟩ := objAt_ident b4
  cases x1 <;> simp [Obj.ident] at i1
  cases x2 <;> simp [Obj.ident] at i2
  cases x3 <;> simp [Obj.ident] at i3
  cases x4 <;> simp [Obj.ident] at i4
  subst i3 i4
  have q := c.object ho trivial
  have q1 := c.object a1 trivial
  have q2 := c.object a2 trivial
  have q3 := c.object a3 trivial
  have q4 := c.object a4 trivial
  simp only [Nat.add_sub_cancel] at q1 q2 q3 q4
  have hdesc : descendant (file e d) n = some (objVal e d (uni + 3) (.cidFont (uni + 2))) := by
    simp only [descendant, q, Option.bind_some, (get_font e d _ f s k _ _).1, q4, Option.map_some]
  refine ⟨?_, ?_, ?_⟩
  · simp only [fontProgram, hdesc, Option.bind_some, (get_cid e d _ _).1, refOf, q3, get_desc, stream, q2, storedData, streamData,
      Option.map_some, Decoder.decode, get_fontFile, N, if_true, decrypt_stored hm hk]
    rw [e0]
  · simp only [toUnicode, q, Option.bind_some, (get_font e d _ f s k _ _).2, refOf, stream, q1, storedData, streamData,
      Option.map_some, Decoder.decode, get_unicode, decrypt_stored hm hk]
    rw [e0]
  · simp only [fontWidths, hdesc, Option.bind_some, (get_cid e d _ _).2, widths_back]
    rw [e0]

theorem owner_eq {d : Doc} (hr : Reachable d) (b : Bool) {i j : Nat} {o : Obj} (ho : d.objs[i]? = some o) (hj : ownOf b o = some j)
    (p : Obj → Bool) (hp : ∀ x, p x = true ↔ ownOf b x = some j) : owner d p = i := by
  have hu := (reachable_uniq hr b).1
  unfold owner
  cases hf : d.objs.findIdx? p with
  | none =>
    rw [List.findIdx?_eq_none_iff] at hf
    have := hf o (List.mem_of_getElem? ho)
    rw [(hp o).2 hj] at this
    simp at this
  | some k =>
    obtain ⟨hk, h1, _⟩ := List.findIdx?_eq_some_iff_getElem.1 hf
    refine hu k i j ?_ ?_
    · simp [hk, (hp _).1 h1]
    · simp [ho, hj]

theorem owner_smask {d : Doc} (hr : Reachable d) {i j id : Nat} {m : ImgInfo} {r : Option Nat} (ho : d.objs[i]? = some (.image id m (some j) r)) :
    owner d (ownsSMask j) = i :=
  owner_eq hr true ho rfl _ fun x => by
    cases x <;> simp [ownsSMask, ownOf]
    next s _ => cases s <;> simp [ownsSMask]

theorem owner_palette {d : Doc} (hr : Reachable d) {i j id : Nat} {m : ImgInfo} {s : Option Nat} (ho : d.objs[i]? = some (.image id m s (some j))) :
    owner d (ownsPalette j) = i :=
  owner_eq hr false ho rfl _ fun x => by
    cases x <;> simp [ownsPalette, ownOf]
    next _ r => cases r <;> simp [ownsPalette]

/-- **C55** Every image a page's resources name is complete in the file: its stream holds the image's data (its alpha channel
if it was first used as a mask), following `/SMask` gives the alpha channel of this image and following `/ColorSpace` its own
palette. -/
theorem image_in_file {e : Env} {prot : Bool} {h : List Op} {d : Doc} (c : Compiled e prot h d) (dec : Decoder) (hm : dec.md5 = e.md5)
    (hk : dec.key = e.key) (k n id : Nat) (info : ImgInfo) (s g : Option Nat) (hn : Denotes d.xobjNames k n)
    (ho : d.objAt n = some (.image id info s g)) :
    imageData dec (file e d) n = some (if info.isMask then (e.look (n - 1)).smask else (e.look (n - 1)).data) ∧
    (info.isMask = false → info.split = false → info.alpha = true → softMaskData dec (file e d) n = some (e.look (n - 1)).smask) ∧
    (info.isMask = false → info.indexed = true → palette dec (file e d) n = some (e.look (n - 1)).pal) := by
  have hi : d.objs[n - 1]? = some (.image id info s g) := by
    unfold Doc.objAt at ho
    split at ho
    · simp at ho
    · exact ho
  have hreg : ∃ id', (id', n - 1) ∈ d.imgs := by
    have hmem : (k, n) ∈ d.xobjNames := by
      have : (k, n) ∈ d.xobjNames.filter fun p => p.1 = k := by rw [hn]; simp
      exact (List.mem_filter.1 this).1
    rw [Doc.xobjNames, (reachable_res c.reachable).xobjs] at hmem
    obtain ⟨i, hi, he⟩ := List.mem_map.1 hmem
    obtain ⟨p, hp, rfl⟩ := List.mem_map.1 hi
    rw [Prod.mk.injEq] at he
    exact ⟨p.1, by rw [← he.2]; simpa using hp⟩
  obtain ⟨id', hreg⟩ := hreg
  obtain ⟨m', s', r', e1, e2⟩ := reachable_imgs c.reachable id' (n - 1) hreg
  rw [hi] at e1
  simp only [Option.some.injEq, Obj.image.injEq] at e1
  obtain ⟨rfl, rfl, rfl, rfl⟩ := e1
  have q := c.object ho trivial
  have wf := reachable_wf c.reachable (n - 1) _ hi
  have hkeys := keys_imageDict (e.look (n - 1)) info s g (if info.isMask then (e.look (n - 1)).smask else (e.look (n - 1)).data).length
  have hpos := objAt_pos ho
  refine ⟨?_, fun h0 h1 h2 => ?_, fun h0 h1 => ?_⟩
  · simp only [imageData, q, Option.bind_some, storedData, streamData, Option.map_some, hpos, decrypt_stored hm hk]
  · obtain ⟨j, rfl⟩ := Option.ne_none_iff_exists'.1 ((e2 h0).1 h2)
    obtain ⟨x, a1, a2⟩ := wf ⟨"SMask", j + 1, .imageSMask⟩ (by simp [core])
    cases x <;> simp [Obj.kind] at a2
    have q1 := c.object a1 trivial
    simp only [Nat.add_sub_cancel] at q1
    have hg : (objVal e d (n - 1) (.image id info (some j) g)).get (lit "SMask") = some (.ref (j + 1)) :=
      get_D_of_mem hkeys (by simp [imageDict, h0, h1, h2])
    simp only [softMaskData, imageData, q, Option.bind_some, hg, refOf, q1, storedData, streamData, Option.map_some, decrypt_stored hm hk,
      owner_smask c.reachable hi]
  · obtain ⟨j, rfl⟩ := Option.ne_none_iff_exists'.1 ((e2 h0).2 h1)
    obtain ⟨x, a1, a2⟩ := wf ⟨"ColorSpace", j + 1, .palette⟩ (by simp [core])
    cases x <;> simp [Obj.kind] at a2
    have q1 := c.object a1 trivial
    simp only [Nat.add_sub_cancel] at q1
    have hg : (objVal e d (n - 1) (.image id info s (some j))).get (lit "ColorSpace") =
        some (.arr [N "Indexed", N "DeviceRGB", ObjectValue.int ((e.look (n - 1)).pal.length / 3 - 1), .ref (j + 1)]) :=
      get_D_of_mem hkeys (by simp [imageDict, imageBase, imageSpace, h0, h1])
    simp only [palette, imageData, q, Option.bind_some, hg, N, ObjectValue.int, q1, storedData, streamData, Option.map_some,
      decrypt_stored hm hk, owner_palette c.reachable hi]

end Verif.Props
