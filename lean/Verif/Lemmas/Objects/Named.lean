import Verif.Lemmas.Objects.Plain
/- Reading resources, graphics states, links and colour spaces. -/
set_option maxRecDepth 10000
namespace Verif.PdfObject
open Doc Objects ObjectValue
open Content (fixed)

theorem nameChars_append {a b : Bytes} (ha : NameChars a) (hb : NameChars b) : NameChars (a ++ b) := by
  intro c hc
  rcases List.mem_append.1 hc with h | h
  exacts [ha c h, hb c h]

theorem nameChars_dec (n : Nat) : NameChars (dec n) := fun b hb => digit_name (dec_all_digit n b hb)

theorem run_resource (p : String) (hp : NameChars (lit p)) (r : Nat × Nat) (st : List Entry) :
    run st (resource p r) = some (onStack (entries (named p [r])) ++ st) := by
  unfold resource
  rw [← List.append_assoc (lit p), name_37 st (nameChars_append hp (nameChars_dec r.1)) (by run_simp)]
  run_simp
  rfl

theorem entries_flatMap (l : List (Bytes × Val)) : (l.flatMap fun x => entries [x]) = entries l := by
  induction l with
  | nil => rfl
  | cons a l ih =>
    rw [List.flatMap_cons, ih]
    exact (entries_append [a] l).symm

theorem flatMap_map' {α β γ : Type} (f : α → β) (g : β → List γ) (l : List α) : (l.map f).flatMap g = l.flatMap fun x => g (f x) := by
  induction l with
  | nil => rfl
  | cons a l ih => simp [ih]

theorem run_resources (p : String) (hp : NameChars (lit p)) (l : List (Nat × Nat)) (st : List Entry) :
    run st (l.flatMap (resource p)) = some (onStack (entries (named p l)) ++ st) := by
  have h := run_flatMap (resource p) (fun r => entries (named p [r])) l (fun r _ st => run_resource p hp r st) st
  rw [h]
  have : (l.flatMap fun r => entries (named p [r])) = entries (named p l) := by
    rw [← entries_flatMap, named, flatMap_map']; rfl
  rw [this]

theorem run_templateLine (t : Bytes × Nat) (ht : ContentReader.TemplateName t.1) (hn : NameOK t.1.tail) (st : List Entry) :
    run st (templateLine t) = some (onStack (entries [(t.1.tail, .ref t.2)]) ++ st) := by
  obtain ⟨n, h, _, _⟩ := ht
  unfold templateLine
  rw [h] at hn ⊢
  have e : lit "\t\t" ++ (47 :: n ++ (lit " " ++ (ref t.2 ++ lit "\n"))) = lit "\t\t/" ++ (n ++ (lit " " ++ (ref t.2 ++ lit "\n"))) := rfl
  rw [e, name_37 st (w := n) hn (by run_simp)]
  run_simp
  rfl

theorem run_templates (l : List (Bytes × Nat)) (h : ∀ t ∈ l, ContentReader.TemplateName t.1 ∧ NameOK t.1.tail) (st : List Entry) :
    run st (l.flatMap templateLine) = some (onStack (entries (l.map fun t => (t.1.tail, .ref t.2))) ++ st) := by
  have hh := run_flatMap templateLine (fun t => entries [(t.1.tail, .ref t.2)]) l (fun t ht st => run_templateLine t (h t ht).1 (h t ht).2 st) st
  rw [hh]
  have : (l.flatMap fun t => entries [(t.1.tail, Val.ref t.2)]) = entries (l.map fun t => (t.1.tail, .ref t.2)) := by
    rw [← entries_flatMap, flatMap_map']
  rw [this]

theorem named_keys (p : String) (l : List (Nat × Nat)) (h : (l.map (·.1)).Nodup) : ((named p l).map (·.1)).Nodup := by
  have : (named p l).map (·.1) = (l.map (·.1)).map fun n => lit p ++ dec n := by simp [named]
  rw [this]
  exact h.map fun a b hab => dec_inj (List.append_cancel_left hab)

/-- A name `I` and digits is not the name of a template. -/
theorem template_ne {n : Bytes} (h : ContentReader.indexed (lit "I") n = none) (k : Nat) : n ≠ lit "I" ++ dec k := by
  rintro rfl
  revert h
  simp only [ContentReader.indexed, dropPrefix?_append, Option.bind_some, ne_eq, dec_ne_nil, not_false_eq_true, List.all_eq_true, true_and]
  rw [if_pos (fun b hb => dec_all_digit k b hb)]
  simp

theorem flatMap_resource {α : Type} (p : String) (f : α → Nat × Nat) (l : List α) :
    (l.flatMap fun x => resource p (f x)) = (l.map f).flatMap (resource p) := (flatMap_map' f _ l).symm

theorem xobj_keys (xs : List Nat) (ts : List (Bytes × Nat)) (hx : xs.Nodup) (ht : (ts.map (·.1)).Nodup)
    (hn : ∀ t ∈ ts, ContentReader.TemplateName t.1) :
    ((named "I" (xs.map fun i => (i + 1, i + 1)) ++ ts.map fun t => (t.1.tail, Val.ref t.2)).map (·.1)).Nodup := by
  rw [List.map_append]
  refine List.Nodup.append (named_keys _ _ ?_) ?_ ?_
  · have : (xs.map fun i => (i + 1, i + 1)).map (·.1) = xs.map (· + 1) := by simp
    rw [this]
    exact hx.map fun a b h => by simpa using h
  · have : (ts.map fun t => (t.1.tail, Val.ref t.2)).map (·.1) = (ts.map (·.1)).map List.tail := by simp
    rw [this]
    refine List.Nodup.map_on ?_ ht
    intro a ha b hb h
    obtain ⟨x, hx, rfl⟩ := List.mem_map.1 ha
    obtain ⟨y, hy, rfl⟩ := List.mem_map.1 hb
    obtain ⟨n, h1, _⟩ := hn x hx
    obtain ⟨m, h2, _⟩ := hn y hy
    rw [h1, h2] at h ⊢
    exact congrArg (47 :: ·) h
  · intro a ha hb
    simp only [named, List.map_map, List.mem_map, Function.comp] at ha hb
    obtain ⟨x, hx, rfl⟩ := ha
    obtain ⟨t, ht, h⟩ := hb
    obtain ⟨n, h1, _, h3⟩ := hn t ht
    rw [h1] at h
    exact template_ne h3 _ h

theorem procset_reads (e : Env) (d : Doc) (i : Nat) (fs : List RelFont) (cs : List RelCS) (xs gs : List Nat)
    (h : Printable e d i (.procset fs cs xs gs)) : Reads (procset e fs cs xs gs) (objVal e d i (.procset fs cs xs gs)) := by
  obtain ⟨hf, hc, hx, hg, ht, hn⟩ := h
  have kf : ((named "F" (fs.map fun r => (r.count + 1, r.index + 1))).map (·.1)).Nodup := by
    apply named_keys
    have : (fs.map fun r => (r.count + 1, r.index + 1)).map (·.1) = (fs.map (·.count)).map (· + 1) := by simp
    rw [this]; exact hf.map fun a b h => by simpa using h
  have kc : ((named "CS" (cs.map fun r => (r.count + 1, r.index + 1))).map (·.1)).Nodup := by
    apply named_keys
    have : (cs.map fun r => (r.count + 1, r.index + 1)).map (·.1) = (cs.map (·.count)).map (· + 1) := by simp
    rw [this]; exact hc.map fun a b h => by simpa using h
  have kg : ((named "GS" (gs.map fun i => (i + 1, i + 1))).map (·.1)).Nodup := by
    apply named_keys
    have : (gs.map fun i => (i + 1, i + 1)).map (·.1) = gs.map (· + 1) := by simp
    rw [this]; exact hg.map fun a b h => by simpa using h
  have kx := xobj_keys xs e.templates hx ht (fun t h => (hn t h).1)
  unfold Reads procset
  simp only [flatMap_resource]
  run_simp
  rw [run_append (run_resources "F" (by unfold NameChars; decide) _ _)]
  run_simp
  rw [closeDict_entries rfl kf]
  run_simp
  rw [run_append (run_resources "CS" (by unfold NameChars; decide) _ _)]
  run_simp
  rw [closeDict_entries rfl kc]
  run_simp
  rw [run_append (run_resources "I" (by unfold NameChars; decide) _ _), run_append (run_templates e.templates hn _)]
  run_simp
  rw [closeDict_entries (entries_append _ _).symm kx]
  run_simp
  rw [run_append (run_resources "GS" (by unfold NameChars; decide) _ _)]
  run_simp
  rw [closeDict_entries rfl kg]
  run_simp
  exact close_top rfl (by same) (by keys)

/-! ### Graphics states -/

theorem decimal_exact (k n : Nat) : decimal k ((n : ℚ) / 10 ^ k) = (n : ℚ) / 10 ^ k := by
  have hp : (0 : ℚ) < 10 ^ k := by positivity
  have hn : ¬ (n : ℚ) / 10 ^ k < 0 := not_lt.2 (by positivity)
  have hx : |(n : ℚ) / 10 ^ k| * 10 ^ k = n := by
    rw [abs_of_nonneg (by positivity)]; field_simp
  unfold decimal
  simp only [hx, hn, if_false]
  rw [show ⌊(n : ℚ)⌋ = (n : Int) from Int.floor_natCast n]
  simp

theorem blendName_chars (b : Nat) : NameChars (blendName b) := by
  have h : ∀ s ∈ "Normal" :: blendNames, ∀ c ∈ lit s, ContentReader.isRegular c = true ∧ c ≠ 35 := by decide +kernel
  unfold blendName
  refine h _ ?_
  rw [List.getD_eq_getElem?_getD]
  cases hb : blendNames[b]? with
  | none => simp
  | some s => simp [List.mem_of_getElem? hb]

theorem extGS_reads (e : Env) (d : Doc) (i : Nat) (k : GKey) : Reads (extGS k) (objVal e d i (.extGS k)) := by
  cases k with
  | alpha a b =>
    unfold Reads extGS
    run_simp
    rw [name_98 _ (blendName_chars b) (by run_simp)]
    run_simp
    have := decimal_exact 3 a
    norm_num at this
    exact close_top rfl (by simp [entries, N, this]) (by keys)
  | smask m =>
    unfold Reads extGS
    run_simp
    exact close_top rfl (by same) (by keys)

/-! ### Links -/

theorem internal_reads (e : Env) (d : Doc) (i a : Nat) (h : (assoc d.anchors a).isSome) :
    Reads (internalLink e i (assoc d.anchors a)) (objVal e d i (.annot (some a))) := by
  obtain ⟨⟨p, y⟩, hp⟩ := Option.isSome_iff_exists.1 h
  unfold Reads
  simp only [internalLink, hp, linkStart, objVal]
  run_simp
  cases p
  all_goals exact close_top rfl (by same) (by keys)

theorem run_close4 (st : List Entry) : run st (lit ">>>>\n") = (closeDict [] st).bind fun st => closeDict [] st := by
  rw [run_end (ts := [.dictClose, .dictClose]) (by decide +kernel)]
  simp

theorem external_reads (e : Env) (d : Doc) (i : Nat) (b : Bytes) (h : externalLink e i = some b)
    (hc : Streams.cipher e.md5 e.key (i + 1) (e.url i) = some (stored e (i + 1) (e.url i))) :
    Reads b (objVal e d i (.annot none)) := by
  simp only [externalLink, hc, Option.bind_eq_bind, Option.bind_some, Option.pure_def, Option.some.injEq] at h
  subst h
  unfold Reads linkStart
  run_simp
  have : lit ")>>>>\n" = 41 :: lit ">>>>\n" := by decide
  rw [this, str_109, run_close4]
  simp only [closeDict_val]
  rw [closeDict_entries (ps := [(lit "S", N "URI"), (lit "URI", .str (stored e (i + 1) (e.url i)))]) (by same) (by keys)]
  simp only [Option.bind_some, closeDict_val]
  rw [closeDict_entries (ps := [(lit "Type", N "Annot"), (lit "Subtype", N "Link"), (lit "Rect", box 2 (e.rect i)),
    (lit "Border", .arr [nat 0, nat 0, nat 0]), (lit "A", .dict [(lit "S", N "URI"), (lit "URI", .str (stored e (i + 1) (e.url i)))])])
    (by same) (by keys)]
  rfl

/-! ### Colour spaces -/

theorem colorSpace_reads (e : Env) (d : Doc) (i n k : Nat) (h : NameOK (e.csName n)) :
    Reads (colorSpace e i n) (objVal e d i (.colorSpace n k)) := by
  unfold Reads colorSpace
  cases hi : e.ink i with
  | rgb r g b =>
    run_simp
    rw [name_113 _ h (by run_simp)]
    run_simp
    rw [closeDict_entries (ps := [(lit "FunctionType", nat 2), (lit "Domain", .arr [nat 0, nat 1]), (lit "C0", .arr [nat 0, nat 0, nat 0]),
      (lit "C1", .arr [rnd 3 (r / 255), rnd 3 (g / 255), rnd 3 (b / 255)]), (lit "N", nat 1)]) (by same) (by keys)]
    run_simp
    simp only [objVal, hi, separation]
    rfl
  | cmyk c m y k =>
    run_simp
    rw [name_113 _ h (by run_simp)]
    run_simp
    rw [closeDict_entries (ps := [(lit "FunctionType", nat 2), (lit "Domain", .arr [nat 0, nat 1]), (lit "C0", .arr [nat 0, nat 0, nat 0, nat 0]),
      (lit "C1", .arr [rnd 3 (c / 100), rnd 3 (m / 100), rnd 3 (y / 100), rnd 3 (k / 100)]), (lit "N", nat 1)]) (by same) (by keys)]
    run_simp
    simp only [objVal, hi, separation]
    rfl

end Verif.PdfObject
