import Verif.Spec.RuledPage
/-! # Specification: a full grid, each line drawn in one stroke (C91) -/

namespace Spec
open Py Geom Table

/-- Every line of an `r × k` grid, drawn with one stroke of width `W` from end to end. -/
def gridSegs (r k : ℕ) (W : ℚ) : List Seg :=
  (List.range (r + 1)).map (fun i => ⟨true, W, i, 0, k⟩) ++ (List.range (k + 1)).map fun j => ⟨false, W, j, 0, r⟩

/-- The strokes of the grid. -/
def gridStrokes (X Y : ℕ → ℚ) (r k : ℕ) (W : ℚ) : List St := (gridSegs r k W).map (Seg.stroke X Y)

/-- Every square is a cell. -/
def unitCell (i j : ℕ) : GRect := ⟨i, j, i + 1, j + 1⟩

/-- The painted area of the grid. -/
def gridFrame (X Y : ℕ → ℚ) (r k : ℕ) (W : ℚ) : Rect := ⟨X 0 - W / 2, Y 0 - W / 2, X k + W / 2, Y r + W / 2⟩

/-- A grid on paper: lines in multiples of 0.1, further apart than `gap`. -/
structure Grid (X Y : ℕ → ℚ) (r k : ℕ) (W gap : ℚ) : Prop where
  rows : 1 ≤ r
  cols : 1 ≤ k
  gapX : ∀ j < k, X j + gap < X (j + 1)
  gapY : ∀ i < r, Y i + gap < Y (i + 1)
  tenX : ∀ j ≤ k, ∃ m : ℤ, X j = m / 10
  tenY : ∀ i ≤ r, ∃ m : ℤ, Y i = m / 10
  width : 0 < W
  tenW : ∃ m : ℤ, W / 2 = m / 10

/-- Other lines on the page: away from the lines of the grid and from each other, beside the grid or within it, none with an end exactly where a vertical line of the grid begins. -/
structure OtherLines (d : ℚ) (X Y : ℕ → ℚ) (r k : ℕ) (W : ℚ) (others : List St) : Prop where
  proper : ∀ o ∈ others, Proper o.bbox ∧ Tenths o.bbox
  away : ∀ o ∈ others, ∀ s ∈ gridStrokes X Y r k W, ¬ Props.Near d d s.bbox o.bbox
  apart : others.Pairwise fun o p => ¬ Props.Near d d o.bbox p.bbox
  place : ∀ o ∈ others, Covers (gridFrame X Y r k W) o.bbox ∨ BoxBeside (gridFrame X Y r k W) o.bbox
  ends : ∀ o ∈ others, ∀ j, 1 ≤ j → j ≤ k → o.bbox.x0 ≠ X j - W / 2 ∧ o.bbox.x1 + 2 * d ≠ X j - W / 2

end Spec
