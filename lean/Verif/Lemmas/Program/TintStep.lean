import Verif.Lemmas.Content.Exts
/- The graphics states of the characters a program writes. -/
set_option maxRecDepth 10000
namespace Verif.Program
open Doc (callSetting TrOK Reachable Ext)
open Content (RunOK)

/-- The graphics states set what is asked for. -/
def Applies (d : Doc.Doc) (ext : List Nat) : Option (Nat × Nat) → Prop
  | none => ext = []
  | some (a, b) => ext ≠ [] ∧ ∀ n ∈ ext, d.objAt n = some (.extGS (.alpha a b))

theorem Applies.ext {d d' : Doc.Doc} (h : Ext d d') {l : List Nat} {s : Option (Nat × Nat)} (ha : Applies d l s) : Applies d' l s := by
  cases s with
  | none => exact ha
  | some p => exact ⟨ha.1, fun n hn => Doc.objAt_gs_ext h (ha.2 n hn)⟩

theorem applies_both {d : Doc.Doc} {a b : List Nat} {s : Option (Nat × Nat)} (ha : d.AppliesAlpha a s) (hb : d.AppliesAlpha b s) (p : Prop) [Decidable p] :
    Applies d ((if p then [] else a) ++ b) s := by
  cases s with
  | none => rw [show a = [] from ha, show b = [] from hb]; simp [Applies]
  | some q =>
    obtain ⟨n, rfl, h1⟩ := ha
    obtain ⟨m, rfl, h2⟩ := hb
    refine ⟨by simp, fun k hk => ?_⟩
    split at hk
    · simp at hk; subst hk; exact h2
    · simp at hk
      rcases hk with rfl | rfl
      · exact h1
      · exact h2

theorem cell_applies {d d' : Doc.Doc} (h : Reachable d) {s : Option (Nat × Nat)} (hs : TrOK d s) (tag : Nat) (tr : Option Doc.Tr)
    (ht : ∀ t ∈ tr.toList, t.sharp) (hok : Doc.step d (.cell tag tr) = (d', .ok)) :
    ∃ en, d'.lastEntry = some en ∧ d'.AppliesAlpha en.gs (callSetting s tr) := by
  have S : Doc.Stable0 (fun _ : Doc.Doc => True) := by constructor <;> intros <;> trivial
  obtain ⟨b1, _⟩ := Doc.both_cachedTransparency S ⟨Doc.reachable_base h, trivial⟩ tr
  have happ := Doc.cachedTransparency_applies (Doc.reachable_base h) hs tr ht
  simp only [Doc.step] at hok
  generalize d.cachedTransparency tr = p at *
  obtain ⟨d1, g⟩ := p
  dsimp only at *
  split at hok
  · simp at hok
  · next i c hc =>
    obtain ⟨h1, h2⟩ := Doc.appendPaged_applies b1.1 { tag := tag, font := some (c + 1), gs := g.toList } happ (by rw [hok])
    rw [hok] at h1 h2
    exact ⟨_, h1, h2⟩

/-! ### Calls -/

def trAfter (x : Option (Nat × Nat)) : Call → Option (Nat × Nat)
  | .setTransparency t => t.wants
  | .clearTransparency => none
  | _ => x

def tint (x : Option (Nat × Nat)) : Call → Option (Nat × Nat)
  | .cellWithOption _ _ _ tr => callSetting x tr
  | _ => none

def txt : Call → Bool
  | .text _ | .cell _ _ | .cellWithOption _ _ _ _ => true
  | _ => false

def box : Call → Bool
  | .cell (some _) _ | .cellWithOption (some _) _ _ _ => true
  | _ => false

def part : Call → Bool
  | .addPage _ | .plain (.setX _) | .plain (.setXY _ _) | .line _ _ _ _ => true
  | _ => false

def runNext (run : Option (Option (Nat × Nat))) (x : Option (Nat × Nat)) (c : Call) : Option (Option (Nat × Nat)) :=
  if part c then none else if txt c then (if box c then run else some (tint x c)) else run

theorem flags {n : Nat} {c : Call} {o : Option Doc.Op} (h : docOp n c = some o) {d : Doc.Doc} {en : Doc.Entry} {k : Content.Call}
    (hk : contentCall d en c = some k) :
    Content.textCall k = txt c ∧ Content.boxCall k = box c ∧ Content.partCall k = part c ∧ ∀ n, k ≠ .setPage n := by
  cases c with
  | object o => simp [contentCall] at hk
  | plain x =>
    simp only [docOp, Option.map_eq_some_iff] at h
    obtain ⟨b, hb, -⟩ := h
    simp only [contentCall, Option.some.injEq] at hk
    subst hk
    cases x <;> simp [plainCall] at hb <;> exact ⟨rfl, rfl, rfl, by simp⟩
  | setColourSpace m => simp only [contentCall, Option.map_eq_some_iff] at hk; obtain ⟨_, _, rfl⟩ := hk; exact ⟨rfl, rfl, rfl, by simp⟩
  | image i j => simp only [contentCall, Option.map_eq_some_iff] at hk; obtain ⟨_, _, rfl⟩ := hk; exact ⟨rfl, rfl, rfl, by simp⟩
  | imageOpt i j t m => simp only [contentCall, Option.map_eq_some_iff] at hk; obtain ⟨_, _, rfl⟩ := hk; exact ⟨rfl, rfl, rfl, by simp⟩
  | cell r t => simp only [contentCall, Option.some.injEq] at hk; subst hk; cases r <;> exact ⟨rfl, rfl, rfl, by simp⟩
  | cellWithOption r t o tr => simp only [contentCall, Option.some.injEq] at hk; subst hk; cases r <;> exact ⟨rfl, rfl, rfl, by simp⟩
  | _ => simp only [contentCall, Option.some.injEq] at hk; subst hk; exact ⟨rfl, rfl, rfl, by simp⟩

theorem paged_not_err (d : Doc.Doc) (en : Doc.Entry) {d' : Doc.Doc} : d.appendPaged en ≠ (d', .err) := by
  unfold Doc.Doc.appendPaged
  split <;> simp

theorem err_flags {n : Nat} {c : Call} {op : Doc.Op} (h : docOp n c = some (some op)) {d d' : Doc.Doc} (hs : Doc.step d op = (d', .err)) :
    txt c = false ∧ part c = false := by
  cases c with
  | text t =>
    simp only [docOp, Option.some.injEq] at h; subst h
    simp only [Doc.step] at hs
    split at hs
    · simp at hs
    · exact absurd hs (paged_not_err _ _)
  | cell r t =>
    simp only [docOp, Option.some.injEq] at h; subst h
    simp only [Doc.step] at hs
    split at hs
    · simp at hs
    · exact absurd hs (paged_not_err _ _)
  | cellWithOption r t o tr =>
    simp only [docOp, Option.some.injEq] at h; subst h
    simp only [Doc.step] at hs
    split at hs
    · simp at hs
    · exact absurd hs (paged_not_err _ _)
  | line a b c d =>
    simp only [docOp, Option.some.injEq] at h; subst h
    exact absurd hs (paged_not_err _ _)
  | addPage x =>
    simp only [docOp, Option.some.injEq] at h; subst h
    simp [Doc.step] at hs
  | plain x => cases x <;> first | exact ⟨rfl, rfl⟩ | simp [docOp, plainCall] at h
  | _ => exact ⟨rfl, rfl⟩

theorem quiet_flags {c : Call} {d : Doc.Doc} {en : Doc.Entry} (h : contentCall d en c = none) : txt c = false ∧ part c = false := by
  cases c <;> first | exact ⟨rfl, rfl⟩ | simp [contentCall] at h

theorem op_settings {n : Nat} {c : Call} {op : Doc.Op} (h : docOp n c = some (some op)) (hs : ∀ t ∈ settingsOf c, t.sharp) :
    ∀ t ∈ op.settings, t.sharp := by
  cases c with
  | object op' =>
    simp only [docOp] at h
    split at h
    · next ho => simp only [Option.some.injEq] at h; subst h; cases op' <;> simp [objectOp, Doc.Op.settings] at ho ⊢
    · simp at h
  | plain c =>
    simp only [docOp, Option.map_eq_some_iff] at h
    obtain ⟨_, _, _, _, rfl⟩ := h
    simp [Doc.Op.settings]
  | imageOpt j i t mask =>
    simp only [docOp, Option.some.injEq] at h
    subst h
    intro x hx
    refine hs x ?_
    rcases mask with _ | ⟨m1, m2, _ | m3⟩ <;> simpa [Doc.Op.settings, settingsOf] using hx
  | _ =>
    simp only [docOp, Option.some.injEq] at h
    subst h
    intro x hx
    refine hs x ?_
    simpa [Doc.Op.settings, settingsOf] using hx

theorem op_effect {n : Nat} {c : Call} {op : Doc.Op} (h : docOp n c = some (some op)) (x : Option (Nat × Nat)) :
    Doc.inEffect x [op] = trAfter x c := by
  cases c with
  | object op' =>
    simp only [docOp] at h
    split at h
    · next ho => simp only [Option.some.injEq] at h; subst h; cases op' <;> simp [objectOp] at ho <;> rfl
    · simp at h
  | plain c =>
    simp only [docOp, Option.map_eq_some_iff] at h
    obtain ⟨_, _, _, _, rfl⟩ := h
    rfl
  | _ =>
    simp only [docOp, Option.some.injEq] at h
    subst h
    rfl

theorem RunOK.mono {s : Content.St} {P Q : List Nat → Prop} (h : RunOK s P) (hpq : ∀ l, P l → Q l) : RunOK s Q :=
  fun pre t ht => ⟨(h pre t ht).1, fun h1 h2 => hpq _ ((h pre t ht).2 h1 h2)⟩

/-- One call. -/
theorem step_tint {e : Content.Env} {s s' : St} {c : Call} {x : Option (Nat × Nat)} {run : Option (Option (Nat × Nat))} (hres : Res s)
    (htr : TrOK s.doc x) (hrun : RunOK s.content fun l => ∃ r, run = some r ∧ Applies s.doc l r) (hs : step e s c = some s')
    (hsharp : ∀ t ∈ settingsOf c, t.sharp) (hpart : txt c = true → ∀ r, run = some r → tint x c = r)
    (hp : s.content.page < s.content.pages.length) (k : Nat) :
    TrOK s'.doc (trAfter x c) ∧
    (∃ new, exts (s'.content.pages.getD k []) = exts (s.content.pages.getD k []) ++ new ∧
      new.length = (if s.content.page = k then (written c).length else 0) ∧ ∀ l ∈ new, Applies s'.doc l (tint x c)) ∧
    RunOK s'.content fun l => ∃ r, runNext run x c = some r ∧ Applies s'.doc l r := by
  have idle : Ext s.doc s'.doc → s'.content = s.content → txt c = false ∧ part c = false → written c = [] →
      (∃ new, exts (s'.content.pages.getD k []) = exts (s.content.pages.getD k []) ++ new ∧
        new.length = (if s.content.page = k then (written c).length else 0) ∧ ∀ l ∈ new, Applies s'.doc l (tint x c)) ∧
      RunOK s'.content fun l => ∃ r, runNext run x c = some r ∧ Applies s'.doc l r := by
    intro hx h1 h2 h3
    refine ⟨⟨[], by rw [h1]; simp, by rw [h3]; simp, by simp⟩, ?_⟩
    rw [h1]
    refine RunOK.mono hrun fun l hl => ?_
    obtain ⟨r, r1, r2⟩ := hl
    exact ⟨r, by simp [runNext, h2.1, h2.2, r1], r2.ext hx⟩
  have go : ∀ (o : Option Doc.Op) (_ : docOp s.next c = some o) (d : Doc.Doc) (en : Doc.Entry) (y : Content.Call) (_ : contentCall d en c = some y)
      (_ : Content.step e s.content y = some s'.content) (_ : Ext s.doc s'.doc) (_ : txt c = true → Applies s'.doc (Content.extOf s.content y) (tint x c)),
      (∃ new, exts (s'.content.pages.getD k []) = exts (s.content.pages.getD k []) ++ new ∧
        new.length = (if s.content.page = k then (written c).length else 0) ∧ ∀ l ∈ new, Applies s'.doc l (tint x c)) ∧
      RunOK s'.content fun l => ∃ r, runNext run x c = some r ∧ Applies s'.doc l r := by
    intro o h1 d en y h2 h3 hx hq
    obtain ⟨f1, f2, f3, f4⟩ := flags h1 h2
    obtain ⟨q1, q2⟩ := Content.step_exts (P := fun l => ∃ r, run = some r ∧ Applies s'.doc l r) (Q := fun l => Applies s'.doc l (tint x c)) h3 hp f4
      (RunOK.mono hrun fun l hl => by obtain ⟨r, r1, r2⟩ := hl; exact ⟨r, r1, r2.ext hx⟩)
      (by rw [f1]; rintro ht l ⟨r, r1, r2⟩; rw [hpart ht r r1]; exact r2) (by rw [f1]; exact hq) k
    refine ⟨by rw [written_call h1 h2] at q1; exact q1, RunOK.mono q2 fun l hl => ?_⟩
    rw [f1, f2, f3] at hl
    revert hl
    unfold runNext
    cases part c
    · cases txt c
      · simp
      · cases box c
        · simp
        · simp
    · simp
  have hbase := hres.reach
  cases step_made hs with
  | pen a1 y a2 a3 a4 a5 =>
    have hno : txt c = false ∧ trAfter x c = x := by
      cases c <;> first | exact ⟨rfl, rfl⟩ | simp [docOp] at a1
    refine ⟨by rw [a3, hno.2]; exact htr, go _ a1 _ _ y a2 a4 (by rw [a3]; exact Ext.refl _) (by simp [hno.1])⟩
  | err op a1 a2 a3 a5 =>
    have hd : s'.doc = (Doc.step s.doc op).1 := by rw [a2]
    have h1 := htr.step hbase op (op_settings a1 hsharp)
    rw [← hd, op_effect a1] at h1
    exact ⟨h1, idle (by rw [hd]; exact Doc.step_ext _ _) a3 (err_flags a1 a2) (no_text a1 a2)⟩
  | quiet op a1 a2 a3 a4 a5 =>
    have hd : s'.doc = (Doc.step s.doc op).1 := by rw [a2]
    have h1 := htr.step hbase op (op_settings a1 hsharp)
    rw [← hd, op_effect a1] at h1
    exact ⟨h1, idle (by rw [hd]; exact Doc.step_ext _ _) a4 (quiet_flags a3) (quiet_text a3)⟩
  | both op a1 a2 y a3 a4 a5 =>
    have hd : s'.doc = (Doc.step s.doc op).1 := by rw [a2]
    have h1 := htr.step hbase op (op_settings a1 hsharp)
    rw [← hd, op_effect a1] at h1
    have hx : Ext s.doc s'.doc := by rw [hd]; exact Doc.step_ext _ _
    refine ⟨h1, go _ a1 _ _ y a3 a4 hx fun ht => ?_⟩
    cases c with
    | text t => simp only [contentCall, Option.some.injEq] at a3; subst a3; rfl
    | cell r t => simp only [contentCall, Option.some.injEq] at a3; subst a3; rfl
    | cellWithOption r t opt tr =>
      simp only [docOp, Option.some.injEq] at a1
      subst a1
      obtain ⟨en, e1, e2⟩ := cell_applies hbase htr _ tr hsharp a2
      rw [e1] at a3
      simp only [contentCall, Option.some.injEq, Option.getD_some] at a3
      subst a3
      refine applies_both e2 ?_ _
      cases tr with
      | none =>
        simp only [Content.transOf, ownTr, Option.map_none, Option.getD_none, hres.ext]
        exact Doc.AppliesAlpha.ext hx htr.cur
      | some t =>
        simp only [Content.transOf, ownTr, Option.map_some, Option.getD_some]
        rw [applies_head e2]
        exact e2
    | _ => simp [txt] at ht

end Verif.Program
