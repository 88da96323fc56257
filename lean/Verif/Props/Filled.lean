import Verif.Props.ToUnicode
import Verif.Spec.Filled
/- C84: the text of placeholders. -/
namespace Verif.Props
open TTF TextRun TextShow Filled

/-- The map of a font: its characters are the font's, or substitutes. -/
private structure Fine (f : Face) (m : CharMap) : Prop where
  inv : MapInv f.source m
  sub : ∀ k, m.keyExists k = true → (∃ g, glyphOf f.cmap k = .ok g) ∨ ∃ r, k = f.subst r

private theorem fine_empty (f : Face) : Fine f CharMap.empty :=
  ⟨.empty _, fun k hk => by simp [CharMap.keyExists, CharMap.index, CharMap.empty] at hk⟩

private theorem exists_set {m : CharMap} {k v k' : Nat} (h : (m.set k v).keyExists k' = true) : k = k' ∨ m.keyExists k' = true := by
  unfold CharMap.keyExists at h ⊢
  rw [index_set] at h
  by_cases e : k = k'
  · exact .inl e
  · rw [if_neg e] at h; exact .inr h

private theorem keeps {m m' : CharMap} {s : CharSource} (h : MapInv s m) (h' : MapInv s m') (p : m.keys <+: m'.keys) {k : Nat}
    (hk : m.keyExists k = true) : m'.keyExists k = true :=
  (h'.keyExists_iff k).2 (p.subset ((h.keyExists_iff k).1 hk))

private theorem addChar_fine {f : Face} {m m' : CharMap} {r r' : Nat} (h : Fine f m) (e : addChar f.source m r = .ok (m', r')) :
    Fine f m' ∧ m.keys <+: m'.keys ∧ ∀ g, glyphOf f.cmap r = .ok g → m'.keyExists r = true := by
  obtain ⟨i1, _, i3, i4, i5⟩ := addChar_ok h.inv e
  refine ⟨⟨i1, ?_⟩, i4, ?_⟩
  · intro k hk
    by_cases hm : m.keyExists k = true
    · exact h.sub k hm
    · unfold addChar at e
      split at e
      · cases e; exact (hm hk).elim
      · split at e
        · next g hg =>
          cases e
          rcases exists_set hk with rfl | hh
          · exact .inl ⟨g, hg⟩
          · exact (hm hh).elim
        · next hnf =>
          simp only [replaceMissing, Face.source] at e
          by_cases hf : m.keyExists (f.subst r) = true
          · rw [if_pos hf] at e; cases e; exact (hm hk).elim
          · rw [if_neg hf] at e
            cases hg : glyphOf f.cmap (f.subst r) with
            | ok g =>
              simp only [hg] at e; cases e
              rcases exists_set hk with rfl | hh
              · exact .inr ⟨r, rfl⟩
              · exact (hm hh).elim
            | error er =>
              simp only [hg] at e
              cases er with
              | panic => cases e
              | notFound =>
                cases e
                rcases exists_set hk with rfl | hh
                · exact .inr ⟨r, rfl⟩
                · exact (hm hh).elim
              | err =>
                cases e
                rcases exists_set hk with rfl | hh
                · exact .inr ⟨r, rfl⟩
                · exact (hm hh).elim
        · cases e
  · intro g hg
    rcases i5 with rfl | ⟨hnf, _⟩
    · exact i3
    · simp only [Face.source] at hnf; rw [hg] at hnf; cases hnf

private theorem addChars_fine {f : Face} : ∀ {t out : List Nat} {m m' : CharMap}, Fine f m → addChars f.source m t = (m', .ok out) →
    Fine f m' ∧ m.keys <+: m'.keys ∧ ∀ r ∈ t, ∀ g, glyphOf f.cmap r = .ok g → m'.keyExists r = true := by
  intro t
  induction t with
  | nil => intro out m m' h e; simp only [addChars] at e; cases e; exact ⟨h, List.prefix_refl _, by simp⟩
  | cons r rest ih =>
    intro out m m' h e
    simp only [addChars] at e
    cases ea : addChar f.source m r with
    | error er => rw [ea] at e; simp at e
    | ok p =>
      obtain ⟨m1, r1⟩ := p
      rw [ea] at e
      simp only at e
      obtain ⟨a1, a2, a3⟩ := addChar_fine h ea
      cases e2 : addChars f.source m1 rest with
      | mk m2 o =>
        rw [e2] at e
        cases o with
        | error er => simp at e
        | ok o' =>
          simp only [Prod.mk.injEq] at e
          obtain ⟨rfl, _⟩ := e
          obtain ⟨b1, b2, b3⟩ := ih a1 e2
          refine ⟨b1, a2.trans b2, ?_⟩
          intro x hx g hg
          rcases List.mem_cons.1 hx with rfl | hx
          · exact keeps a1.inv b1.inv b2 (a3 g hg)
          · exact b3 x hx g hg

/-- All fonts. -/
private def AllFine (faces : Nat → Face) (maps : Nat → CharMap) : Prop := ∀ f, Fine (faces f) (maps f)

/-- Characters are never forgotten. -/
private def Grows (maps maps' : Nat → CharMap) : Prop := ∀ f k, (maps f).keyExists k = true → (maps' f).keyExists k = true

/-- A font's map has the characters of a text the font has glyphs for. -/
private def Has (faces : Nat → Face) (maps : Nat → CharMap) (f : Nat) (t : List Nat) : Prop :=
  ∀ r ∈ t, ∀ g, glyphOf (faces f).cmap r = .ok g → (maps f).keyExists r = true

private theorem Has.grows {faces : Nat → Face} {maps maps' : Nat → CharMap} {f : Nat} {t : List Nat} (h : Has faces maps f t) (g : Grows maps maps') :
    Has faces maps' f t := fun r hr x hx => g f r (h r hr x hx)

private theorem update_fine {faces : Nat → Face} {maps : Nat → CharMap} {f : Nat} {t out : List Nat} {m : CharMap} (h : AllFine faces maps)
    (e : addChars (faces f).source (maps f) t = (m, .ok out)) :
    AllFine faces (Function.update maps f m) ∧ Grows maps (Function.update maps f m) ∧ Has faces (Function.update maps f m) f t := by
  obtain ⟨a, b, c⟩ := addChars_fine (h f) e
  refine ⟨fun x => ?_, fun x k hk => ?_, fun r hr g hg => ?_⟩
  · by_cases hx : x = f
    · subst hx; simpa using a
    · simpa [hx] using h x
  · by_cases hx : x = f
    · subst hx; simpa using keeps (h x).inv a.inv b hk
    · simpa [hx] using hk
  · simpa using c r hr g hg

private theorem fillItems_spec {faces : Nat → Face} {name : List UInt8} {t : List Nat} : ∀ {items : List Filled.Item} {maps : Nat → CharMap}
    {p : (Nat → CharMap) × List Filled.Item}, AllFine faces maps → fillItems faces name t maps items = some p →
    AllFine faces p.1 ∧ Grows maps p.1 ∧ p.2.length = items.length ∧
    ∀ (n : Nat) i, items[n]? = some i → (i.holder = some name → p.2[n]? = some { i with text := t } ∧ Has faces p.1 i.font t) ∧
      (i.holder ≠ some name → p.2[n]? = some i) := by
  intro items
  induction items with
  | nil => intro maps p h e; simp only [fillItems, Option.some.injEq] at e; subst e; exact ⟨h, fun _ _ hk => hk, rfl, by simp⟩
  | cons i rest ih =>
    intro maps p h e
    simp only [fillItems] at e
    split at e
    · next hn =>
      cases e2 : addChars (faces i.font).source (maps i.font) t with
      | mk m o =>
        rw [e2] at e
        cases o with
        | error er => simp at e
        | ok o' =>
          simp only [Option.map_eq_some_iff] at e
          obtain ⟨q, hq, rfl⟩ := e
          obtain ⟨u1, u2, u3⟩ := update_fine h e2
          obtain ⟨v1, v2, v3, v4⟩ := ih u1 hq
          refine ⟨v1, fun f k hk => v2 f k (u2 f k hk), by simp [v3], ?_⟩
          intro n j hj
          cases n with
          | zero =>
            simp only [List.getElem?_cons_zero, Option.some.injEq] at hj
            subst hj
            exact ⟨fun _ => ⟨rfl, u3.grows v2⟩, fun c => (c hn).elim⟩
          | succ n => exact v4 n j (by simpa using hj)
    · next hn =>
      simp only [Option.map_eq_some_iff] at e
      obtain ⟨q, hq, rfl⟩ := e
      obtain ⟨v1, v2, v3, v4⟩ := ih h hq
      refine ⟨v1, v2, by simp [v3], ?_⟩
      intro n j hj
      cases n with
      | zero =>
        simp only [List.getElem?_cons_zero, Option.some.injEq] at hj
        subst hj
        exact ⟨fun c => (hn c).elim, fun _ => rfl⟩
      | succ n => exact v4 n j (by simpa using hj)

/-- What a call keeps. -/
private theorem filled_step {faces : Nat → Face} {s s' : Filled.St} {c : Filled.Call} (h : AllFine faces s.maps) (e : Filled.step faces s c = some s') :
    AllFine faces s'.maps ∧ Grows s.maps s'.maps ∧ s'.items.length = s.items.length + (if makes c then 1 else 0) := by
  cases c with
  | text f t =>
    simp only [Filled.step] at e
    cases e2 : addChars (faces f).source (s.maps f) t with
    | mk m o =>
      rw [e2] at e
      cases o with
      | error er => simp at e
      | ok o' =>
        simp only [Option.some.injEq] at e
        subst e
        obtain ⟨u1, u2, _⟩ := update_fine h e2
        exact ⟨u1, u2, by simp [makes]⟩
  | hold f name =>
    simp only [Filled.step, Option.some.injEq] at e
    subst e
    exact ⟨h, fun _ _ hk => hk, by simp [makes]⟩
  | fill name t =>
    simp only [Filled.step, Option.map_eq_some_iff] at e
    obtain ⟨p, hp, rfl⟩ := e
    obtain ⟨u1, u2, u3, _⟩ := fillItems_spec h hp
    exact ⟨u1, u2, by simp [makes, u3]⟩

private theorem filled_steps {faces : Nat → Face} : ∀ {calls : List Filled.Call} {s s' : Filled.St}, AllFine faces s.maps →
    Filled.steps faces s calls = some s' → AllFine faces s'.maps ∧ s'.items.length = s.items.length + calls.countP makes := by
  intro calls
  induction calls with
  | nil => intro s s' h e; simp only [Filled.steps, Option.some.injEq] at e; subst e; exact ⟨h, by simp⟩
  | cons c rest ih =>
    intro s s' h e
    simp only [Filled.steps, Option.bind_eq_some_iff] at e
    obtain ⟨s1, h1, h2⟩ := e
    obtain ⟨u1, _, u3⟩ := filled_step h h1
    obtain ⟨v1, v2⟩ := ih u1 h2
    refine ⟨v1, ?_⟩
    rw [v2, u3, List.countP_cons]
    split <;> omega

private theorem filled_append {faces : Nat → Face} : ∀ (a b : List Filled.Call) (s : Filled.St),
    Filled.steps faces s (a ++ b) = (Filled.steps faces s a).bind fun s' => Filled.steps faces s' b := by
  intro a
  induction a with
  | nil => intro b s; rfl
  | cons c a ih =>
    intro b s
    simp only [List.cons_append, Filled.steps]
    cases Filled.step faces s c with
    | none => rfl
    | some s1 => simpa using ih b s1

/-- A placeholder keeps its place and has the text filled in last. -/
private theorem filled_item {faces : Nat → Face} {name : List UInt8} {f n : Nat} : ∀ {calls : List Filled.Call} {s s' : Filled.St} {t : List Nat},
    AllFine faces s.maps → s.items[n]? = some ⟨f, t, some name⟩ → Has faces s.maps f t → Filled.steps faces s calls = some s' →
    AllFine faces s'.maps ∧ s'.items[n]? = some ⟨f, lastFill name t calls, some name⟩ ∧ Has faces s'.maps f (lastFill name t calls) := by
  intro calls
  induction calls with
  | nil => intro s s' t h hi hh e; simp only [Filled.steps, Option.some.injEq] at e; subst e; exact ⟨h, hi, hh⟩
  | cons c rest ih =>
    intro s s' t h hi hh e
    simp only [Filled.steps, Option.bind_eq_some_iff] at e
    obtain ⟨s1, h1, h2⟩ := e
    obtain ⟨u1, u2, _⟩ := filled_step h h1
    have hlt : n < s.items.length := (List.getElem?_eq_some_iff.1 hi).1
    cases c with
    | text f' t' =>
      refine ih u1 ?_ (hh.grows u2) h2
      simp only [Filled.step] at h1
      split at h1
      · simp only [Option.some.injEq] at h1
        subst h1
        simpa [List.getElem?_append_left hlt] using hi
      · cases h1
    | hold f' name' =>
      refine ih u1 ?_ (hh.grows u2) h2
      simp only [Filled.step, Option.some.injEq] at h1
      subst h1
      simpa [List.getElem?_append_left hlt] using hi
    | fill name' t' =>
      simp only [Filled.step, Option.map_eq_some_iff] at h1
      obtain ⟨p, hp, rfl⟩ := h1
      obtain ⟨_, _, _, v4⟩ := fillItems_spec h hp
      obtain ⟨w1, w2⟩ := v4 n _ hi
      simp only [lastFill]
      by_cases hn : name' = name
      · subst hn
        rw [if_pos rfl]
        obtain ⟨x1, x2⟩ := w1 rfl
        exact ih u1 x1 x2 h2
      · rw [if_neg hn]
        exact ih u1 (w2 (by simpa using fun c => hn c.symm)) (hh.grows u2) h2

/-- **C84** What a placeholder shows.  Whatever was drawn, reserved and filled in before (`pre`) and after (`post`), a placeholder made with font
`f` is written with exactly the glyphs this font has for the characters of the text filled in last under its name, in their order: a
character the font has is drawn with the font's glyph, one it does not have is left out (`filled_substitute_fails`).  Nothing is shown if nothing was
filled in.  `n` is the number of text objects made before.  Conditions: the font's glyph numbers have two bytes, and the missing characters of the text
are not themselves substitutes of others. -/
theorem filled_shown (faces : Nat → Face) (base : Nat → RunFont) (pre post : List Filled.Call) (f : Nat) (name : List UInt8) (s : Filled.St)
    (hglyph : ∀ r g, (faces f).glyph r = some g → g < 65536)
    (hrun : Filled.steps faces {} (pre ++ .hold f name :: post) = some s)
    (hsub : ∀ r ∈ lastFill name [] post, (faces f).glyph r = none → ∀ r', (faces f).subst r' ≠ r) :
    ∃ i items, s.items[pre.countP makes]? = some i ∧ readTJ (written base s i) = some items ∧
      codesOf items = (lastFill name [] post).filterMap (faces f).glyph := by
  rw [filled_append, Option.bind_eq_some_iff] at hrun
  obtain ⟨s1, h1, h2⟩ := hrun
  obtain ⟨a1, a2⟩ := filled_steps (fun f => fine_empty (faces f)) h1
  simp only [List.length_nil, Nat.zero_add] at a2
  simp only [Filled.steps, Filled.step, Option.bind_some] at h2
  obtain ⟨b1, b2, b3⟩ := filled_item (n := pre.countP makes) (f := f) (name := name) (t := [])
    (s := { s1 with items := s1.items ++ [⟨f, [], some name⟩] }) a1 (by simp [← a2]) (by intro r hr; simp at hr) h2
  have hm := b1 f
  have hsmall : ∀ r g, (s.maps f).val r = some g → g < 65536 := by
    intro r g hr
    rcases hm.inv.glyph r g hr with h | h | h
    · exact hglyph r g (by simp only [Face.source] at h; simp [Face.glyph, h, Except.toOption])
    · rw [h.1]; decide
    · rw [h.1]; decide
  refine ⟨_, _, b2, readTJ_tjBytes (small_tjLoop _ none ?_ _ _), ?_⟩
  · simpa using hsmall
  · rw [codesOf_tjLoop]
    have e : (withIndex 0 (lastFill name [] post)).filterMap (fun p => (s.maps f).val p.2) =
        (lastFill name [] post).filterMap fun r => (s.maps f).val r := by
      conv_rhs => rw [← withIndex_runes (lastFill name [] post) 0]
      rw [List.filterMap_map]; rfl
    simp only
    rw [e]
    refine List.filterMap_congr fun r hr => ?_
    have hkey : ∀ {g}, (s.maps f).val r = some g → (s.maps f).keyExists r = true := by
      intro g hg
      unfold CharMap.val at hg
      unfold CharMap.keyExists
      cases hi : (s.maps f).index r <;> simp [hi] at hg ⊢
    cases hg : glyphOf (faces f).cmap r with
    | ok g =>
      obtain ⟨g', hg'⟩ := hm.inv.val_isSome (b3 r hr g hg)
      rcases hm.inv.glyph r g' hg' with h | ⟨_, h⟩ | ⟨_, h⟩ <;> simp only [Face.source] at h <;> rw [hg] at h <;> cases h
      simp [Face.glyph, hg, hg', Except.toOption]
    | error er =>
      have hn : (faces f).glyph r = none := by simp [Face.glyph, hg, Except.toOption]
      rw [hn]
      cases hv : (s.maps f).val r with
      | none => rfl
      | some g =>
        rcases hm.sub r (hkey hv) with ⟨g', hg'⟩ | ⟨r', hr'⟩
        · rw [hg] at hg'; cases hg'
        · exact (hsub r hr hn r' hr'.symm).elim

/-- A font with "A" to "C" and the space, which stands for what it does not have. -/
def spacedFace : Face := ⟨⟨⟨3, [32, 67, 65535], [32, 65, 65535], [65507, 65475, 1], [0, 0, 0], []⟩, [], []⟩, fun _ => 32⟩

/-- Two placeholders of one name, filled twice, with other text around. -/
def filledCalls : List Filled.Call :=
  [.text 0 [65], .hold 0 [1], .hold 0 [2], .fill [1] [66, 66], .hold 0 [1], .text 0 [64], .fill [1] [67, 65], .fill [2] [65]]

private theorem spaced_small (r g : Nat) (h : spacedFace.glyph r = some g) : g < 65536 := by
  have : ∀ x, TTF.glyphOf spacedFace.cmap r = .ok x → x < 65536 := by
    intro x hx
    unfold glyphOf at hx
    split at hx
    · unfold lookup4 at hx
      dsimp only at hx
      split at hx
      · split at hx
        · cases hx
        · split at hx
          · cases hx; omega
          · split at hx
            · cases hx
            · split at hx <;> cases hx <;> omega
      · cases hx
    · cases hx
  unfold Face.glyph at h
  cases hx : glyphOf spacedFace.cmap r <;> rw [hx] at h <;> cases h
  exact this _ hx

/-- The conditions of `filled_shown` are met, and what the theorem says of the first placeholder. -/
example : ∃ s i items, Filled.steps (fun _ => spacedFace) {} filledCalls = some s ∧ s.items[1]? = some i ∧
    readTJ (written (fun _ => demoRun) s i) = some items ∧ codesOf items = [6, 4] := by
  obtain ⟨i, items, h1, h2, h3⟩ := filled_shown (fun _ => spacedFace) (fun _ => demoRun) [.text 0 [65]] (filledCalls.drop 2) 0 [1]
    (hglyph := fun r g h => spaced_small r g h) (s := ((Filled.steps (fun _ => spacedFace) {} filledCalls).get (by decide +kernel))) (hrun := by rw [Option.some_get]; rfl)
    (hsub := by
      intro r hr hn
      have e : lastFill [1] [] (filledCalls.drop 2) = [67, 65] := by decide +kernel
      rw [e] at hr
      revert hn
      have : ∀ x ∈ [67, 65], spacedFace.glyph x ≠ none := by decide +kernel
      intro hn
      exact (this r hr hn).elim)
  refine ⟨_, i, items, (Option.some_get _).symm, h1, h2, ?_⟩
  rw [h3]
  decide +kernel

example : ∃ s, Filled.steps (fun _ => spacedFace) {} filledCalls = some s ∧
      s.items.map (written (fun _ => demoRun) s) = [lit "[<0004>] TJ\n", lit "[<0006>20<0004>] TJ\n", lit "[<0004>] TJ\n", lit "[<0006>20<0004>] TJ\n", lit "[<0003>] TJ\n"] := by
  refine ⟨_, rfl, ?_⟩
  decide +kernel

/-- **C84** (counterexample)  The substitute for a missing character is not drawn in a placeholder: "A@B" with a font without "@" is drawn by Text
with a space in the place of "@" and by FillInPlaceHoldText as "AB". -/
theorem filled_substitute_fails : ∃ s, Filled.steps (fun _ => spacedFace) {} [.text 0 [65, 64, 66], .hold 0 [1], .fill [1] [65, 64, 66]] = some s ∧
    s.items.map (·.text) = [[65, 32, 66], [65, 64, 66]] ∧
    s.items.map (written (fun _ => { demoRun with useKerning := false }) s) = [lit "[<000400030005>] TJ\n", lit "[<00040005>] TJ\n"] := by
  refine ⟨_, rfl, ?_, ?_⟩ <;> decide +kernel

end Verif.Props
