import Verif.Model.Import
/-
Specification: what is expected of the importer.
-/
namespace Verif.Import

/-- Told to go on with number `n`, the importer gives the new objects the numbers `n`, `n + 1`, ... without gaps, each with a text;
numbers and names are keys of maps. -/
structure Numbered (n : Nat) (f : Fetched) : Prop where
  keys : (f.objs.map (·.1)).Nodup
  names : (f.templates.map (·.1)).Nodup
  new : ∃ k, ∀ i, n ≤ i → ((∃ b, b ≠ [] ∧ (i, b) ∈ f.objs) ↔ i < n + k)

/-- The importer draws the page, a form of `W` by `H` points, into the rectangle with upper left corner `(x, y)` and sides `w`, `h`:
the form's own coordinates are scaled, and its lower left corner is moved to `(x, -y - h)`, which the library measures from the
upper edge of the page. -/
def Fits (p : Source) (W H : ℚ) : Prop := W ≠ 0 ∧ H ≠ 0 ∧ ∀ x y w h, p.place x y w h = (w / W, h / H, x, -y - h)

end Verif.Import
