import Verif.Spec.Container
/- Documents with a shared font container: every document behaves as if its fonts were private. -/
namespace Verif.ContainerSpec
open Container TTF
variable {F K : Type}

/-- A font as loaded. -/
def loaded (f : FontObj F K) : FontView F K := ⟨f.file, f.src, f.family, none, some .empty, []⟩

def setKernView (fn : K) (family : Nat) : List (FontView F K) → List (FontView F K)
  | [] => []
  | f :: rest => if f.family = family then { f with kern := some fn } :: rest else f :: setKernView fn family rest

/-- One turn of the loop on a private font. -/
def charView (v : DocView F K) (i : Nat) (f : FontView F K) (r : Nat) : DocView F K :=
  match f.used with
  | none => { v with log := .error .panic :: v.log }
  | some m =>
    match addChar f.src m r with
    | .error e => { v with log := .error e :: v.log }
    | .ok (m', r') => { v with fonts := v.fonts.set i { f with used := some m', pending := f.pending ++ [r'] } }

/-- A call on a document of its own. -/
def docStep (c : List (Nat × FontObj F K)) (v : DocView F K) : Op F K → DocView F K
  | .store .. => v
  | .load _ family =>
    match loadFont c family with
    | none => v
    | some f => { v with fonts := v.fonts ++ [loaded f] }
  | .add _ family file src => { v with fonts := v.fonts ++ [loaded (freshFont family file src)] }
  | .kern _ family fn => { v with fonts := setKernView fn family v.fonts }
  | .begin _ i =>
    match v.fonts[i]? with
    | none => v
    | some f => { v with fonts := v.fonts.set i { f with pending := [] } }
  | .char _ i r =>
    match v.fonts[i]? with
    | none => v
    | some f => charView v i f r
  | .finish _ i =>
    match v.fonts[i]? with
    | none => v
    | some f => { v with log := .ok (f.pending.map goRune) :: v.log }

/-- The heap is not shared. -/
structure WF (w : World F K) : Prop where
  cont : ∀ e ∈ w.container, e.2.charMap = none ∧ e.2.buff = none
  mapOk : ∀ {d i : Nat} {f : FontObj F K}, (w.docs d).fonts[i]? = some f → ∃ a, f.charMap = some a ∧ a < w.next
  buffOk : ∀ {d i b : Nat} {f : FontObj F K}, (w.docs d).fonts[i]? = some f → f.buff = some b → b < w.next
  mapInj : ∀ {d i d' i' : Nat} {f f' : FontObj F K}, (w.docs d).fonts[i]? = some f → (w.docs d').fonts[i']? = some f' →
    f.charMap = f'.charMap → d = d' ∧ i = i'
  buffInj : ∀ {d i d' i' b : Nat} {f f' : FontObj F K}, (w.docs d).fonts[i]? = some f → (w.docs d').fonts[i']? = some f' →
    f.buff = some b → f'.buff = some b → d = d' ∧ i = i'

theorem wf_empty : WF (World.empty : World F K) := by
  constructor <;> simp [World.empty]

@[simp] theorem upd_self {α : Type} (f : Nat → α) (a : Nat) (v : α) : upd f a v a = v := by simp [upd]
theorem upd_ne {α : Type} (f : Nat → α) {a x : Nat} (v : α) (h : x ≠ a) : upd f a v x = f x := by simp [upd, h]

/-- Fonts whose cells are untouched look the same. -/
theorem fontView_congr {w w' : World F K} {f : FontObj F K} (hm : ∀ a, f.charMap = some a → w'.maps a = w.maps a)
    (hb : ∀ b, f.buff = some b → w'.buffs b = w.buffs b) : fontView w' f = fontView w f := by
  unfold fontView readBuff
  cases h1 : f.charMap <;> cases h2 : f.buff <;> simp_all

theorem map_view_congr {w w' : World F K} {l : List (FontObj F K)} (h : ∀ f ∈ l, fontView w' f = fontView w f) :
    l.map (fontView w') = l.map (fontView w) := List.map_congr_left h

theorem load_cont {w : World F K} (hw : WF w) {family : Nat} {f : FontObj F K} (h : loadFont w.container family = some f) :
    f.charMap = none ∧ f.buff = none := by
  unfold loadFont at h
  obtain ⟨e, he, rfl⟩ := Option.map_eq_some_iff.1 h
  exact hw.cont e (List.mem_of_find?_eq_some he)

/-! ### Adding a font -/

theorem add_docs (w : World F K) (d : Nat) (f : FontObj F K) (x : Nat) :
    ((addFont (initFont w f).1 d (initFont w f).2).docs x) =
      if x = d then ⟨(w.docs d).fonts ++ [{ f with charMap := some w.next, kern := none }], (w.docs d).log⟩ else w.docs x := by
  unfold addFont initFont upd
  rfl

theorem getElem?_add {l : List (FontObj F K)} {g f : FontObj F K} {i : Nat} (h : (l ++ [g])[i]? = some f) :
    l[i]? = some f ∨ i = l.length ∧ f = g := by
  rcases Nat.lt_trichotomy i l.length with hi | hi | hi
  · rw [List.getElem?_append_left hi] at h; exact .inl h
  · subst hi; simp at h; exact .inr ⟨rfl, h.symm⟩
  · rw [List.getElem?_eq_none (by simp; omega)] at h; exact absurd h (by simp)

theorem wf_add {w : World F K} (hw : WF w) (d : Nat) {f : FontObj F K} (hb : f.buff = none) :
    WF (addFont (initFont w f).1 d (initFont w f).2) := by
  have hn : (addFont (initFont w f).1 d (initFont w f).2).next = w.next + 1 := rfl
  have get : ∀ {x i : Nat} {g : FontObj F K}, ((addFont (initFont w f).1 d (initFont w f).2).docs x).fonts[i]? = some g →
      (w.docs x).fonts[i]? = some g ∨ x = d ∧ i = (w.docs d).fonts.length ∧ g = { f with charMap := some w.next, kern := none } := by
    intro x i g h
    rw [add_docs] at h
    split at h
    · next hx =>
      subst hx
      rcases getElem?_add h with h | h
      · exact .inl h
      · exact .inr ⟨rfl, h⟩
    · exact .inl h
  refine ⟨hw.cont, ?_, ?_, ?_, ?_⟩
  · intro x i g h
    rw [hn]
    rcases get h with h | ⟨-, -, rfl⟩
    · obtain ⟨a, h1, h2⟩ := hw.mapOk h
      exact ⟨a, h1, by omega⟩
    · exact ⟨w.next, rfl, by omega⟩
  · intro x i b g h h'
    rw [hn]
    rcases get h with h | ⟨-, -, rfl⟩
    · have := hw.buffOk h h'; omega
    · rw [show ({ f with charMap := some w.next, kern := none } : FontObj F K).buff = f.buff from rfl, hb] at h'
      exact absurd h' (by simp)
  · intro x i x' i' g g' h h' he
    rcases get h with h | ⟨r1, r2, rfl⟩ <;> rcases get h' with h' | ⟨r3, r4, rfl⟩
    · exact hw.mapInj h h' he
    · obtain ⟨a, h1, h2⟩ := hw.mapOk h
      rw [h1] at he
      simp only [Option.some.injEq] at he
      omega
    · obtain ⟨a, h1, h2⟩ := hw.mapOk h'
      rw [h1] at he
      simp only [Option.some.injEq] at he
      omega
    · exact ⟨r1.trans r3.symm, r2.trans r4.symm⟩
  · intro x i x' i' b g g' h h' he he'
    rcases get h with h | ⟨r1, r2, rfl⟩ <;> rcases get h' with h' | ⟨r3, r4, rfl⟩
    · exact hw.buffInj h h' he he'
    · exact absurd (hb.symm.trans he') (by simp)
    · exact absurd (hb.symm.trans he) (by simp)
    · exact ⟨r1.trans r3.symm, r2.trans r4.symm⟩

theorem view_add {w : World F K} (hw : WF w) (d : Nat) {f : FontObj F K} (hb : f.buff = none) (x : Nat) :
    view (addFont (initFont w f).1 d (initFont w f).2) x =
      if x = d then { (view w d) with fonts := (view w d).fonts ++ [loaded f] } else view w x := by
  have old : ∀ {y : Nat}, ((w.docs y).fonts).map (fontView (addFont (initFont w f).1 d (initFont w f).2)) =
      ((w.docs y).fonts).map (fontView w) := by
    intro y
    refine map_view_congr fun g hg => ?_
    obtain ⟨i, hgi⟩ := List.mem_iff_getElem?.1 hg
    obtain ⟨a, h1, h2⟩ := hw.mapOk hgi
    refine fontView_congr (fun a' ha => ?_) (fun b _ => rfl)
    rw [h1] at ha
    simp only [Option.some.injEq] at ha
    exact upd_ne _ _ (by omega)
  unfold view
  rw [add_docs]
  split
  · next hx =>
    subst hx
    simp only [List.map_append, old, List.map_cons, List.map_nil]
    congr 2
    have : fontView (addFont (initFont w f).1 x (initFont w f).2) { f with charMap := some w.next, kern := none } = loaded f := by
      simp [fontView, loaded, readBuff, hb, addFont, initFont]
    rw [this]
  · rw [old]

/-! ### Other calls -/

theorem setKern_get (fn : K) (family : Nat) : ∀ (l : List (FontObj F K)) (i : Nat) (f : FontObj F K), (setKern fn family l)[i]? = some f →
    ∃ g, l[i]? = some g ∧ g.charMap = f.charMap ∧ g.buff = f.buff := by
  intro l
  induction l with
  | nil => intro i f h; simp [setKern] at h
  | cons g l ih =>
    intro i f h
    unfold setKern at h
    split at h
    · cases i with
      | zero => simp at h; exact ⟨g, rfl, by rw [← h], by rw [← h]⟩
      | succ i => exact ⟨f, by simpa using h, rfl, rfl⟩
    · cases i with
      | zero => exact ⟨f, by simpa using h, rfl, rfl⟩
      | succ i => obtain ⟨g', h1, h2⟩ := ih i f (by simpa using h); exact ⟨g', by simpa using h1, h2⟩

theorem setKern_view (fn : K) (family : Nat) (w : World F K) (l : List (FontObj F K)) :
    (setKern fn family l).map (fontView w) = setKernView fn family (l.map (fontView w)) := by
  induction l with
  | nil => rfl
  | cons f l ih =>
    unfold setKern setKernView
    simp only [List.map_cons]
    by_cases h : f.family = family
    · simp [h, fontView, readBuff]
    · simp [h, fontView, ih]

/-- Changing documents' fonts without touching addresses keeps the heap unshared. -/
theorem wf_docs {w w' : World F K} (hw : WF w) (hc : w'.container = w.container) (hn : w'.next = w.next)
    (h : ∀ (d i : Nat) (f : FontObj F K), (w'.docs d).fonts[i]? = some f → ∃ g, (w.docs d).fonts[i]? = some g ∧ g.charMap = f.charMap ∧ g.buff = f.buff) :
    WF w' := by
  refine ⟨hc ▸ hw.cont, ?_, ?_, ?_, ?_⟩
  · intro d i f hf
    obtain ⟨g, h1, h2, h3⟩ := h d i f hf
    rw [← h2, hn]; exact hw.mapOk h1
  · intro d i b f hf hb
    obtain ⟨g, h1, h2, h3⟩ := h d i f hf
    rw [hn]; exact hw.buffOk h1 (h3.trans hb)
  · intro d i d' i' f f' hf hf' he
    obtain ⟨g, h1, h2, h3⟩ := h d i f hf
    obtain ⟨g', h1', h2', h3'⟩ := h d' i' f' hf'
    exact hw.mapInj h1 h1' (by rw [h2, he, h2'])
  · intro d i d' i' b f f' hf hf' he he'
    obtain ⟨g, h1, h2, h3⟩ := h d i f hf
    obtain ⟨g', h1', h2', h3'⟩ := h d' i' f' hf'
    exact hw.buffInj h1 h1' (h3.trans he) (h3'.trans he')

theorem wf_log {w : World F K} (hw : WF w) (d : Nat) (r : Res (List Nat)) : WF (logResult w d r) := by
  refine wf_docs (w' := logResult w d r) hw rfl rfl fun x i f h => ⟨f, ?_, rfl, rfl⟩
  unfold logResult upd at h
  dsimp only at h
  split at h
  · next hx => subst hx; exact h
  · exact h

theorem view_log (w : World F K) (d : Nat) (r : Res (List Nat)) (x : Nat) :
    view (logResult w d r) x = if x = d then { (view w d) with log := r :: (view w d).log } else view w x := by
  unfold view logResult upd
  dsimp only
  split <;> rfl

/-- Writing the cells of font `i` of document `d` only. -/
theorem view_write {w w' : World F K} (hw : WF w) {d i : Nat} {f f' : FontObj F K} (hf : (w.docs d).fonts[i]? = some f)
    (hdocs : ∀ x, w'.docs x = if x = d then { (w.docs d) with fonts := (w.docs d).fonts.set i f' } else w.docs x)
    (hm : ∀ a, f.charMap ≠ some a → a < w.next → w'.maps a = w.maps a) (hb : ∀ b, f.buff ≠ some b → b < w.next → w'.buffs b = w.buffs b) (x : Nat) :
    view w' x = if x = d then { (view w d) with fonts := (view w d).fonts.set i (fontView w' f') } else view w x := by
  have other : ∀ {y j : Nat} {g : FontObj F K}, (w.docs y).fonts[j]? = some g → ¬ (y = d ∧ j = i) → fontView w' g = fontView w g := by
    intro y j g hg hne
    refine fontView_congr (fun a ha => hm a (fun he => ?_) ?_) (fun b hgb => hb b (fun he => ?_) (hw.buffOk hg hgb))
    · exact hne (hw.mapInj hg hf (ha.trans he.symm))
    · obtain ⟨a', h1, h2⟩ := hw.mapOk hg
      rw [ha] at h1
      simp only [Option.some.injEq] at h1
      omega
    · exact hne (hw.buffInj hg hf hgb he)
  unfold view
  rw [hdocs]
  split
  · next hx =>
    subst hx
    simp only
    congr 1
    refine List.ext_getElem? fun j => ?_
    rw [List.getElem?_map, List.getElem?_set, List.getElem?_set, List.length_map]
    by_cases hj : i = j
    · subst hj
      simp only [if_true]
      split <;> rfl
    · simp only [hj, if_false, List.getElem?_map]
      cases hg : (w.docs x).fonts[j]? with
      | none => rfl
      | some g => simp only [Option.map_some, other hg (fun h => hj h.2.symm)]
  · next hx =>
    congr 1
    refine map_view_congr fun g hg => ?_
    obtain ⟨j, hj⟩ := List.mem_iff_getElem?.1 hg
    exact other hj (fun h => hx h.1)

theorem docs_self (w : World F K) {d i : Nat} {f : FontObj F K} (hf : (w.docs d).fonts[i]? = some f) (x : Nat) :
    w.docs x = if x = d then { (w.docs d) with fonts := (w.docs d).fonts.set i f } else w.docs x := by
  split
  · next h =>
    subst h
    have : (w.docs x).fonts.set i f = (w.docs x).fonts := by
      refine List.ext_getElem? fun j => ?_
      rw [List.getElem?_set]
      by_cases hj : i = j
      · subst hj; simp only [if_true, hf]; split
        · rfl
        · next h => rw [List.getElem?_eq_none (by omega)] at hf; exact absurd hf (by simp)
      · simp [hj]
    rw [this]
  · rfl

theorem view_get (w : World F K) (d i : Nat) : (view w d).fonts[i]? = ((w.docs d).fonts[i]?).map (fontView w) := by
  simp [view]

/-! ### One step -/

theorem step_container (w : World F K) (op : Op F K) (h : op.doc ≠ none) : (step w op).container = w.container := by
  cases op with
  | store => exact absurd rfl h
  | load d family => simp only [step]; split <;> rfl
  | add => rfl
  | kern => rfl
  | begin d i => simp only [step]; split; rfl; split <;> rfl
  | char d i r =>
    simp only [step]; split
    · rfl
    · unfold charStep; split
      · rfl
      · split
        · rfl
        · unfold writeBuff; split <;> rfl
  | finish d i => simp only [step]; split <;> rfl

theorem step_ok {w : World F K} (hw : WF w) (op : Op F K) : WF (step w op) ∧
    ∀ x, view (step w op) x = if op.doc = some x then docStep w.container (view w x) op else view w x := by
  cases op with
  | store family file src =>
    refine ⟨⟨?_, hw.mapOk, hw.buffOk, hw.mapInj, hw.buffInj⟩, fun x => rfl⟩
    intro e he
    simp only [step, storeFont, List.mem_cons, List.mem_filter] at he
    rcases he with rfl | he
    · exact ⟨rfl, rfl⟩
    · exact hw.cont e he.1
  | load d family =>
    simp only [step]
    cases hl : loadFont w.container family with
    | none => exact ⟨hw, fun x => by simp [docStep, hl]⟩
    | some f =>
      have hb := (load_cont hw hl).2
      refine ⟨wf_add hw d hb, fun x => ?_⟩
      dsimp only
      rw [view_add hw d hb]
      by_cases hx : x = d
      · subst hx; simp [Op.doc, docStep, hl]
      · simp [Op.doc, hx, Ne.symm hx]
  | add d family file src =>
    refine ⟨wf_add hw d rfl, fun x => ?_⟩
    simp only [step]
    rw [view_add hw d rfl]
    by_cases hx : x = d
    · subst hx; simp [Op.doc, docStep]
    · simp [Op.doc, hx, Ne.symm hx]
  | kern d family fn =>
    refine ⟨wf_docs (w' := step w (.kern d family fn)) hw rfl rfl fun x i f h => ?_, fun x => ?_⟩
    · simp only [step, upd] at h
      split at h
      · next hx => subst hx; exact setKern_get _ _ _ _ _ h
      · exact ⟨f, h, rfl, rfl⟩
    · by_cases hx : x = d
      · subst hx
        simp only [Op.doc, if_true, docStep, step, view, upd_self]
        congr 1
        exact setKern_view fn family w _
      · simp [Op.doc, Ne.symm hx, step, view, upd, hx, fontView, readBuff]
  | begin d i =>
    simp only [step]
    cases hf : (w.docs d).fonts[i]? with
    | none =>
      refine ⟨hw, fun x => ?_⟩
      by_cases hx : x = d
      · subst hx; simp [docStep, view_get, hf]
      · simp [Op.doc, Ne.symm hx]
    | some f =>
      dsimp only
      cases hb : f.buff with
      | none =>
        refine ⟨hw, fun x => ?_⟩
        have := view_write (w' := w) hw hf (docs_self w hf) (fun _ _ _ => rfl) (fun _ _ _ => rfl) x
        dsimp only
        by_cases hx : x = d
        · subst hx
          rw [if_pos rfl] at this
          refine Eq.trans this ?_
          simp [Op.doc, docStep, view_get, hf, fontView, readBuff, hb]
        · simp [Op.doc, Ne.symm hx]
      | some b =>
        refine ⟨wf_docs (w' := { w with buffs := upd w.buffs b [] }) hw rfl rfl fun x i f h => ⟨f, h, rfl, rfl⟩, fun x => ?_⟩
        have := view_write (w' := { w with buffs := upd w.buffs b [] }) hw hf (docs_self w hf) (fun _ _ _ => rfl)
          (fun b' hb' _ => upd_ne _ _ (fun h => hb' (h ▸ hb))) x
        rw [this]
        by_cases hx : x = d
        · subst hx
          simp [Op.doc, docStep, view_get, hf, fontView, readBuff, hb]
        · simp [Op.doc, Ne.symm hx, hx]
  | char d i r =>
    simp only [step]
    cases hf : (w.docs d).fonts[i]? with
    | none =>
      refine ⟨hw, fun x => ?_⟩
      by_cases hx : x = d
      · subst hx; simp [docStep, view_get, hf]
      · simp [Op.doc, Ne.symm hx]
    | some f =>
      dsimp only
      obtain ⟨a, ha, hlt⟩ := hw.mapOk hf
      simp only [charStep, ha]
      have hchar : ∀ (v : DocView F K), v = view w d → docStep w.container v (.char d i r) = charView v i (fontView w f) r := by
        rintro v rfl
        simp [docStep, view_get, hf]
      cases hac : addChar f.src (w.maps a) r with
      | error e =>
        refine ⟨wf_log hw d _, fun x => ?_⟩
        dsimp only
        rw [view_log]
        by_cases hx : x = d
        · subst hx
          simp only [Op.doc, if_true]
          rw [hchar _ rfl]
          simp [charView, fontView, ha, hac]
        · simp [Op.doc, hx, Ne.symm hx]
      | ok p =>
        obtain ⟨m, r'⟩ := p
        dsimp only
        cases hb : f.buff with
        | some b =>
          simp only [writeBuff, hb]
          refine ⟨wf_docs (w' := { w with maps := upd w.maps a m, buffs := upd w.buffs b (readBuff w f ++ [r']) }) hw rfl rfl
            fun x i f h => ⟨f, h, rfl, rfl⟩, fun x => ?_⟩
          rw [view_write (w' := { w with maps := upd w.maps a m, buffs := upd w.buffs b (readBuff w f ++ [r']) }) hw hf
            (docs_self w hf) (fun a' h _ => upd_ne _ _ (fun h' => h (h' ▸ ha))) (fun b' h _ => upd_ne _ _ (fun h' => h (h' ▸ hb))) x]
          by_cases hx : x = d
          · subst hx
            simp only [Op.doc, if_true]
            rw [hchar _ rfl]
            simp [charView, fontView, ha, hac, readBuff, hb]
          · simp [Op.doc, hx, Ne.symm hx]
        | none =>
          simp only [writeBuff, hb]
          have hlt' : i < (w.docs d).fonts.length := (List.getElem?_eq_some_iff.1 hf).1
          refine ⟨⟨hw.cont, ?_, ?_, ?_, ?_⟩, fun x => ?_⟩
          all_goals try
            have get : ∀ {x j : Nat} {g : FontObj F K},
                (upd w.docs d { (w.docs d) with fonts := (w.docs d).fonts.set i { f with buff := some w.next } } x).fonts[j]? = some g →
                  ∃ g', (w.docs x).fonts[j]? = some g' ∧ g.charMap = g'.charMap ∧ (g.buff = g'.buff ∨ x = d ∧ j = i ∧ g.buff = some w.next) := by
              intro x j g h
              unfold upd at h
              split at h
              · next hx =>
                subst hx
                dsimp only at h
                rw [List.getElem?_set] at h
                by_cases hj : i = j
                · subst hj
                  simp only [if_true, hlt', Option.some.injEq] at h
                  subst h
                  exact ⟨f, hf, rfl, .inr ⟨rfl, rfl, rfl⟩⟩
                · simp only [hj, if_false] at h
                  exact ⟨g, h, rfl, .inl rfl⟩
              · exact ⟨g, h, rfl, .inl rfl⟩
          · intro x j g h
            obtain ⟨g', h1, h2, -⟩ := get h
            obtain ⟨a', h3, h4⟩ := hw.mapOk h1
            exact ⟨a', h2.trans h3, Nat.lt_succ_of_lt h4⟩
          · intro x j b g h hgb
            obtain ⟨g', h1, -, h3 | ⟨-, -, h3⟩⟩ := get h
            · exact Nat.lt_succ_of_lt (hw.buffOk h1 (h3 ▸ hgb))
            · rw [h3] at hgb
              simp only [Option.some.injEq] at hgb
              show b < w.next + 1
              omega
          · intro x j x' j' g g' h h' he
            obtain ⟨q, h1, h2, -⟩ := get h
            obtain ⟨q', h1', h2', -⟩ := get h'
            exact hw.mapInj h1 h1' (by rw [← h2, he, h2'])
          · intro x j x' j' b g g' h h' he he'
            obtain ⟨q, h1, -, h3⟩ := get h
            obtain ⟨q', h1', -, h3'⟩ := get h'
            rcases h3 with h3 | ⟨r1, r2, h3⟩ <;> rcases h3' with h3' | ⟨r3, r4, h3'⟩
            · exact hw.buffInj h1 h1' (h3 ▸ he) (h3' ▸ he')
            · have := hw.buffOk h1 (h3 ▸ he)
              rw [h3'] at he'; simp only [Option.some.injEq] at he'; omega
            · have := hw.buffOk h1' (h3' ▸ he')
              rw [h3] at he; simp only [Option.some.injEq] at he; omega
            · exact ⟨r1.trans r3.symm, r2.trans r4.symm⟩
          · rw [view_write (w := w) (f := f) (d := d) (i := i) (f' := { f with buff := some w.next }) hw hf (fun y => rfl)
              (fun a' h _ => upd_ne (a := a) (x := a') w.maps m (fun h' => h (h' ▸ ha))) (fun b' _ h => upd_ne (a := w.next) (x := b') w.buffs _ (Nat.ne_of_lt h)) x]
            by_cases hx : x = d
            · subst hx
              simp only [Op.doc, if_true]
              rw [hchar _ rfl]
              simp [charView, fontView, ha, hac, readBuff, hb]
            · simp [Op.doc, hx, Ne.symm hx]
  | finish d i =>
    simp only [step]
    cases hf : (w.docs d).fonts[i]? with
    | none =>
      refine ⟨hw, fun x => ?_⟩
      by_cases hx : x = d
      · subst hx; simp [docStep, view_get, hf]
      · simp [Op.doc, Ne.symm hx]
    | some f =>
      dsimp only
      refine ⟨wf_log hw d _, fun x => ?_⟩
      rw [view_log]
      by_cases hx : x = d
      · subst hx; simp [Op.doc, docStep, view_get, hf, fontView]
      · simp [Op.doc, hx, Ne.symm hx]

end Verif.ContainerSpec
