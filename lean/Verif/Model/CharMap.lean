import Verif.Model.TTF
/-
The map from the characters used with a font to glyph numbers (`map_of_character_To_glyph_index.go`) and `AddChars`
(`subset_font_obj.go`).  A character is a non-negative rune; text is the list of runes of a Go string.
-/
namespace Verif.TTF

/-- map_of_character_To_glyph_index.go 4-8.  `keyIndexs` is a Go map, here an association list, newest first. -/
structure CharMap where
  keyIndexs : List (Nat × Nat)
  keys : List Nat
  vals : List Nat
  deriving DecidableEq, Repr

/-- map_of_character_To_glyph_index.go 11-15 `NewMapOfCharacterToGlyphIndex`. -/
def CharMap.empty : CharMap := ⟨[], [], []⟩

/-- map_of_character_To_glyph_index.go 38-48 `Index`. -/
def CharMap.index (m : CharMap) (k : Nat) : Option Nat :=
  (m.keyIndexs.find? fun e => e.1 == k).map (·.2)

/-- map_of_character_To_glyph_index.go 18-28 `KeyExists`. -/
def CharMap.keyExists (m : CharMap) (k : Nat) : Bool := (m.index k).isSome

/-- map_of_character_To_glyph_index.go 31-35 `Set`. -/
def CharMap.set (m : CharMap) (k v : Nat) : CharMap :=
  ⟨(k, m.keys.length) :: m.keyIndexs, m.keys ++ [k], m.vals ++ [v]⟩

/-- map_of_character_To_glyph_index.go 51-57 `Val`; subset_font_obj.go 219-225 `CharIndex` (`none` is
`ErrCharNotFound`).  `m.Vals[i]` is always in range (proved: the index map points into the lists). -/
def CharMap.val (m : CharMap) (k : Nat) : Option Nat :=
  match m.index k with
  | none => none
  | some i => m.vals[i]?

/-- The parts of a subset font `AddChars` uses: the parsed cmap and the `OnGlyphNotFoundSubstitute` callback
(subset_font_obj.go 72-77: a missing callback is replaced by one that returns a space when options are set; 200-214
still handles its absence).  The callback is a function of the rune: a callback whose answer varies from call to call
is not modelled. -/
structure CharSource where
  cmap : Cmap
  subst : Option (Nat → Nat)

/-- subset_font_obj.go 203-216 `replaceGlyphThatNotFound`.  A panic inside the lookup of the replacement is passed
on. -/
def replaceMissing (s : CharSource) (m : CharMap) (r : Nat) : Res (Bool × Nat × Nat) :=
  match s.subst with
  | none => .ok (false, r, 0)
  | some f =>
    if m.keyExists (f r) then .ok (true, f r, 0)
    else match glyphOf s.cmap (f r) with
      | .ok g => .ok (false, f r, g)
      | .error .panic => .error .panic
      | .error _ => .ok (false, f r, 0)

/-- One turn of the loop in `AddChars`, subset_font_obj.go 139-163: the new map and the rune to draw. -/
def addChar (s : CharSource) (m : CharMap) (r : Nat) : Res (CharMap × Nat) :=
  if m.keyExists r then .ok (m, r)
  else match glyphOf s.cmap r with
    | .ok g => .ok (m.set r g, r)
    | .error .notFound =>
      match replaceMissing s m r with
      | .ok (true, r', _) => .ok (m, r')
      | .ok (false, r', g) => .ok (m.set r' g, r')
      | .error e => .error e
    | .error e => .error e

/-- What `string([]rune)` does to one rune: values that are no Unicode scalar become U+FFFD (Go specification). -/
def goRune (r : Nat) : Nat := if r < 0xD800 ∨ (0xDFFF < r ∧ r ≤ 0x10FFFF) then r else 0xFFFD

/-- subset_font_obj.go 137-165 `AddChars`.  The map is updated in place, so it is returned also when the call
fails. -/
def addChars (s : CharSource) (m : CharMap) : List Nat → CharMap × Res (List Nat)
  | [] => (m, .ok [])
  | r :: rest =>
    match addChar s m r with
    | .error e => (m, .error e)
    | .ok (m', r') =>
      match addChars s m' rest with
      | (m'', .ok out) => (m'', .ok (goRune r' :: out))
      | (m'', .error e) => (m'', .error e)

end Verif.TTF
