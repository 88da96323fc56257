import Verif.Lemmas.Embed.Layout
/-
What a successful `parseFont` says about the bytes of the file.
-/
namespace Verif.Embed
open Verif.TTF Verif.CmapSpec Verif.FontFile

/-- The directory entry at offset `p` is `e`. -/
def EntryAt (d : Bytes) (p : Nat) (e : Bytes × Table) : Prop :=
  (d.drop p).take 4 = e.1 ∧ U32 d (p + 4) e.2.checksum ∧ U32 d (p + 8) e.2.offset ∧ U32 d (p + 12) e.2.length

theorem readTables_ok {d : Bytes} : ∀ (k p : Nat) (acc ts : List (Bytes × Table)), readTables d p k acc = .ok ts →
    ∃ es : List (Bytes × Table), ts = es.reverse ++ acc ∧ es.length = k ∧ ∀ (i : Nat) e, es[i]? = some e → EntryAt d (p + 16 * i) e := by
  intro k
  induction k with
  | zero => intro p acc ts h; simp [readTables] at h; subst h; exact ⟨[], by simp⟩
  | succ k ih =>
    intro p acc ts h
    unfold readTables at h
    split at h
    · simp only [bind_ok, throw_ne, false_and, exists_false] at h
    · simp only [bind_ok] at h
      obtain ⟨c, hc, o, ho, l, hl, h⟩ := h
      obtain ⟨es, e1, e2, e3⟩ := ih _ _ _ h
      refine ⟨((d.drop p).take 4, ⟨c, o, l⟩) :: es, by simp [e1], by simp [e2], ?_⟩
      intro i e he
      cases i with
      | zero =>
        simp at he; subst he
        exact ⟨rfl, u32_ok.1 hc, u32_ok.1 ho, u32_ok.1 hl⟩
      | succ i =>
        have := e3 i e (by simpa using he)
        rwa [show p + 16 + 16 * i = p + 16 * (i + 1) by omega] at this

theorem tableOf_iff {d : Bytes} {n : Nat} {ts : List (Bytes × Table)} (hn : U16 d 4 n) (hd : DistinctTags d)
    (h : readTables d 12 n [] = .ok ts) (tag : Bytes) (t : Table) :
    tableOf ts tag = some t ↔ HasEntry d tag t.checksum t.offset t.length := by
  obtain ⟨es, e1, e2, e3⟩ := readTables_ok _ _ _ _ h
  rw [List.append_nil] at e1
  have hfind : ∀ e, ts.find? (fun e => e.1 == tag) = some e → ∃ i, i < n ∧ es[i]? = some e ∧ e.1 = tag := by
    intro e he
    have hm := List.mem_of_find?_eq_some he
    have hp := List.find?_some he
    rw [e1, List.mem_reverse] at hm
    obtain ⟨i, hi, hie⟩ := List.getElem_of_mem hm
    exact ⟨i, by omega, by rw [List.getElem?_eq_getElem hi, hie], by simpa using hp⟩
  unfold tableOf
  constructor
  · intro ht
    rw [Option.map_eq_some_iff] at ht
    obtain ⟨e, he, rfl⟩ := ht
    obtain ⟨i, hi, hie, rfl⟩ := hfind e he
    obtain ⟨a1, a2, a3, a4⟩ := e3 i e hie
    exact ⟨n, i, hn, hi, a1, a2, a3, a4⟩
  · rintro ⟨n', i, hn', hi, htag, hs, ho, hl⟩
    have := U16_fun hn hn'; subst this
    have hie : es[i]? = some (es[i]'(by omega)) := List.getElem?_eq_getElem _
    obtain ⟨a1, a2, a3, a4⟩ := e3 i _ hie
    have hmem : es[i]'(by omega) ∈ ts := by rw [e1, List.mem_reverse]; exact List.getElem_mem _
    have htag' : (es[i]'(by omega)).1 = tag := by rw [← a1, htag]
    cases hf : ts.find? (fun e => e.1 == tag) with
    | none =>
      have := List.find?_eq_none.1 hf _ hmem
      simp [htag'] at this
    | some e =>
      obtain ⟨j, hj, hje, het⟩ := hfind e hf
      obtain ⟨b1, b2, b3, b4⟩ := e3 j e hje
      have hij : i = j := hd n i j hn hi hj (by rw [htag, b1, het])
      subst hij
      simp only [Option.map_some, Option.some.injEq]
      have s1 := U32_fun hs b2
      have s2 := U32_fun ho b3
      have s3 := U32_fun hl b4
      cases e with | mk a b => cases b; cases t; simp at *; exact ⟨s1.symm, s2.symm, s3.symm⟩

theorem table_of {d tag : Bytes} {s o l : Nat} (h : HasEntry d tag s o l) : HasTable d tag o l := by
  obtain ⟨n, i, h1, h2, h3, _, h5, h6⟩ := h
  exact ⟨n, i, h1, h2, h3, h5, h6⟩

theorem HasTable_fun {d tag : Bytes} {o l o' l' : Nat} (hd : DistinctTags d) (h : HasTable d tag o l)
    (h' : HasTable d tag o' l') : o = o' ∧ l = l' := by
  obtain ⟨n, i, h1, h2, h3, h5, h6⟩ := h
  obtain ⟨n', j, g1, g2, g3, g5, g6⟩ := h'
  have := U16_fun h1 g1; subst this
  have hij : i = j := hd n i j h1 h2 g2 (by rw [h3, g3])
  subst hij
  exact ⟨U32_fun h5 g5, U32_fun h6 g6⟩

theorem u32s_ok {d : Bytes} : ∀ {k p : Nat} {l : List Nat}, u32s d p k = .ok l →
    l.length = k ∧ ∀ (i : Nat) x, l[i]? = some x → U32 d (p + 4 * i) x := by
  intro k
  induction k with
  | zero => intro p l h; simp [u32s] at h; subst h; simp
  | succ k ih =>
    intro p l h
    simp only [u32s, bind_ok, pure_ok] at h
    obtain ⟨x, hx, xs, hxs, rfl⟩ := h
    obtain ⟨h1, h2⟩ := ih hxs
    refine ⟨by simp [h1], ?_⟩
    intro i y hy
    cases i with
    | zero => simp at hy; subst hy; exact u32_ok.1 hx
    | succ i =>
      have := h2 i y (by simpa using hy)
      rwa [show p + 4 + 4 * i = p + 4 * (i + 1) by omega] at this

/-- Everything a parsed font says about its file. -/
structure Parsed (d : Bytes) (f : Font) : Prop where
  data : f.data = d
  count : ∃ n, U16 d 4 n
  table : ∀ tag t, tableOf f.tables tag = some t ↔ HasEntry d tag t.checksum t.offset t.length
  head : ∃ h hl x, HasTable d (lit "head") h hl ∧ U16 d (h + 50) x ∧ (f.shortIndex = true ↔ x = 0)
  glyphs : NumGlyphs d f.nGlyphs
  loca : ∀ (g n : Nat), f.loca[g]? = some n ↔ Loca d g n
  cmap : ∃ cm cl, HasTable d (lit "cmap") cm cl ∧ parseCmapAt d cm = .ok f.cmap

theorem seek_ok {ts : List (Bytes × Table)} {tag : String} {p : Nat} (h : seek ts tag = .ok p) :
    ∃ t, tableOf ts (lit tag) = some t ∧ t.offset = p := by
  unfold seek at h
  split at h
  · next t ht => cases h; exact ⟨t, ht, rfl⟩
  · cases h

theorem i16_zero {d : Bytes} {p : Nat} {v : Int} (h : i16 d p = .ok v) : ∃ x, U16 d p x ∧ (v = 0 ↔ x = 0) := by
  unfold i16 at h
  simp only [bind_ok] at h
  obtain ⟨u, hu, h⟩ := h
  have := U16_lt (u16_ok.1 hu)
  refine ⟨u, u16_ok.1 hu, ?_⟩
  split at h
  · rw [pure_ok] at h; subst h; omega
  · rw [pure_ok] at h; subst h; omega

theorem parseFont_ok {d : Bytes} {f : Font} (hd : DistinctTags d) (h : parseFont d = .ok f) : Parsed d f := by
  unfold parseFont at h
  split at h
  · simp only [bind_ok, throw_ne, false_and, exists_false] at h
  simp only [bind_ok, pure_ok] at h
  obtain ⟨n, hn, ts, hts, ⟨upem, fmt⟩, hhead, ⟨asc, desc, nHM⟩, hhhea, nG, hmaxp, ws, hws, cm, hcm, loca, hloca, rfl⟩ := h
  have hn' := u16_ok.1 hn
  have htab := tableOf_iff hn' hd hts
  -- head
  have hh : ∃ h hl x, HasTable d (lit "head") h hl ∧ U16 d (h + 50) x ∧ ((fmt == 0) = true ↔ x = 0) := by
    unfold parseHead at hhead
    simp only [bind_ok] at hhead
    obtain ⟨p, hp, magic, hm, hhead⟩ := hhead
    split at hhead
    · simp only [bind_ok, throw_ne, false_and, exists_false] at hhead
    simp only [bind_ok, pure_ok, Prod.mk.injEq] at hhead
    obtain ⟨_, _, _, _, _, _, _, _, _, _, v, hv, -, rfl⟩ := hhead
    obtain ⟨t, ht, rfl⟩ := seek_ok hp
    obtain ⟨x, hx, hiff⟩ := i16_zero hv
    exact ⟨t.offset, t.length, x, (table_of ((htab _ _).1 ht)), hx, by simpa using hiff⟩
  refine ⟨rfl, ⟨n, hn'⟩, htab, hh, ?_, ?_, ?_⟩
  · unfold parseMaxp at hmaxp
    simp only [bind_ok] at hmaxp
    obtain ⟨p, hp, hx⟩ := hmaxp
    obtain ⟨t, ht, rfl⟩ := seek_ok hp
    exact ⟨t.offset, t.length, (table_of ((htab _ _).1 ht)), u16_ok.1 hx⟩
  · obtain ⟨ho, hl, x, hht, hx50, hiff⟩ := hh
    intro g m
    have hshort : (fmt == 0) = true ↔ ShortLoca d := by
      rw [hiff]
      constructor
      · rintro rfl; exact ⟨ho, hl, hht, hx50⟩
      · rintro ⟨ho', hl', hht', h0⟩
        obtain ⟨rfl, rfl⟩ := HasTable_fun hd hht hht'
        exact U16_fun hx50 h0
    have hlong : (fmt == 0) = false ↔ LongLoca d := by
      rw [← Bool.not_eq_true, hiff]
      constructor
      · intro hne; exact ⟨ho, hl, x, hht, hx50, hne⟩
      · rintro ⟨ho', hl', x', hht', h0, hne⟩
        obtain ⟨rfl, rfl⟩ := HasTable_fun hd hht hht'
        rw [U16_fun hx50 h0]; exact hne
    unfold parseLoca at hloca
    cases htl : tableOf ts (lit "loca") with
    | none => rw [htl] at hloca; cases hloca
    | some t =>
      rw [htl] at hloca
      have hT := (table_of ((htab _ _).1 htl))
      simp only at hloca
      cases hb : (fmt == 0) with
      | true =>
        rw [hb] at hloca
        simp only [if_true, bind_ok, pure_ok] at hloca
        obtain ⟨l, hl1, rfl⟩ := hloca
        obtain ⟨l1, l2⟩ := u16s_ok hl1
        have hS := hshort.1 hb
        constructor
        · intro hg
          rw [List.getElem?_map, Option.map_eq_some_iff] at hg
          obtain ⟨y, hy, rfl⟩ := hg
          have hlt : g < l.length := (List.getElem?_eq_some_iff.1 hy).1
          exact ⟨t.offset, t.length, hT, .inl ⟨hS, by omega, y, l2 g y hy, rfl⟩⟩
        · rintro ⟨lo, ll, hT', hcase⟩
          obtain ⟨rfl, rfl⟩ := HasTable_fun hd hT hT'
          rcases hcase with ⟨_, hle, y, hy, rfl⟩ | ⟨hL, _⟩
          · have hg : l[g]? = some (l[g]'(by omega)) := List.getElem?_eq_getElem _
            have := U16_fun (l2 g _ hg) hy
            rw [List.getElem?_map, hg, this]; rfl
          · have := hlong.2 hL; rw [hb] at this; cases this
      | false =>
        rw [hb] at hloca
        simp only [Bool.false_eq_true, if_false] at hloca
        obtain ⟨l1, l2⟩ := u32s_ok hloca
        have hL := hlong.1 hb
        constructor
        · intro hg
          have hlt : g < loca.length := (List.getElem?_eq_some_iff.1 hg).1
          exact ⟨t.offset, t.length, hT, .inr ⟨hL, by omega, l2 g m hg⟩⟩
        · rintro ⟨lo, ll, hT', hcase⟩
          obtain ⟨rfl, rfl⟩ := HasTable_fun hd hT hT'
          rcases hcase with ⟨hS, _⟩ | ⟨_, hle, hm⟩
          · have := hshort.2 hS; rw [hb] at this; cases this
          · have hg : loca[g]? = some (loca[g]'(by omega)) := List.getElem?_eq_getElem _
            have := U32_fun (l2 g _ hg) hm
            rw [hg, this]
  · unfold parseCmap at hcm
    simp only [bind_ok] at hcm
    obtain ⟨p, hp, hx⟩ := hcm
    obtain ⟨t, ht, rfl⟩ := seek_ok hp
    exact ⟨t.offset, t.length, (table_of ((htab _ _).1 ht)), hx⟩

end Verif.Embed
