import Verif.Spec.Ruled
import Verif.Spec.Geom
import Verif.Spec.Graph
import Verif.Props.Sweep
/-! # Specification: a page with tables drawn with ruled lines, and other lines (C91) -/

namespace Spec
open Py Geom Table

/-- A drawn table: grid lines `X 0 … X k`, `Y 0 … Y r`, and its division into cells. -/
structure PageTable where
  X : ℕ → ℚ
  Y : ℕ → ℚ
  r : ℕ
  k : ℕ
  cell : ℕ → ℕ → GRect

/-- The strokes at the positions for which `p` holds, in order. -/
def strokesAt (p : ℕ → Bool) (strokes : List St) : List St := ((List.range strokes.length).filter p).filterMap (strokes[·]?)

/-- The strokes of table `t`; `own i` is the table of the stroke at position `i`. -/
def strokesOf (own : ℕ → Option ℕ) (t : ℕ) (strokes : List St) : List St := strokesAt (fun i => decide (own i = some t)) strokes

/-- One box lies beside the other. -/
def BoxBeside (a b : Rect) : Prop := a.x1 ≤ b.x0 ∨ b.x1 ≤ a.x0 ∨ a.y1 ≤ b.y0 ∨ b.y1 ≤ a.y0

/-- The strokes at `i` and `j` overlap, `j` starts further right, and no earlier stroke of the page has an end at the left end of `j`. -/
def Hook (d : ℚ) (strokes : List St) (i j : ℕ) : Prop :=
  ∃ a b, strokes[i]? = some a ∧ strokes[j]? = some b ∧ a.bbox.x0 < b.bbox.x0 ∧ Props.Overlap d d a.bbox b.bbox ∧
    Props.LeftSideFirst d (strokes.map St.bbox) j

/-- A page with `n` drawn tables. `own` tells the table of each stroke (`none`: any other line, e.g. an underline), `box` the outer box of each table. `loose i`: stroke `i` is the
whole left side of a table, and need not be hooked to the others. -/
structure DrawnPage (d w δ e gap : ℚ) (strokes : List St) (own : ℕ → Option ℕ) (loose : ℕ → Bool) (n : ℕ) (tab : ℕ → PageTable) (box : ℕ → Rect) : Prop where
  proper : ∀ s ∈ strokes, Proper s.bbox ∧ Tenths s.bbox
  d0 : 0 ≤ d
  owner : ∀ i t, own i = some t → t < n
  division : ∀ t < n, Division (tab t).r (tab t).k (tab t).cell
  /-- The strokes of each table draw its cells. -/
  ruled : ∀ t < n, Ruled δ e gap (tab t).X (tab t).Y (tab t).r (tab t).k (tab t).cell (strokesOf own t strokes)
  /-- Strokes that do not belong to the same table are not near each other. -/
  apart : ∀ i j a b, i ≠ j → strokes[i]? = some a → strokes[j]? = some b → (own i = none ∨ own i ≠ own j) → ¬ Props.Near d d a.bbox b.bbox
  /-- The strokes of a table hang together. -/
  hooked : ∀ i j t, i < strokes.length → j < strokes.length → own i = some t → own j = some t → loose i = false → loose j = false →
    Linked strokes.length (Hook d strokes) i j
  /-- A loose stroke is the only one at the left side of its table, and lies within the box. -/
  left : ∀ i t s, strokes[i]? = some s → own i = some t → loose i = true →
    (∃ a b, OnCol δ e (tab t).X (tab t).Y (tab t).r (tab t).k s 0 a b) ∧ w + 2 * δ + 1 / 20 ≤ gap ∧ Covers (box t) s.bbox ∧ ¬ Covers s.bbox (box t) ∧
    ∀ j s' a b, strokes[j]? = some s' → own j = some t → OnCol δ e (tab t).X (tab t).Y (tab t).r (tab t).k s' 0 a b → j = i
  hull : ∀ t < n, IsHull ((strokesAt (fun i => decide (own i = some t) && !loose i) strokes).map St.bbox) (box t)
  /-- The tables lie beside each other, other lines beside or within a table. -/
  tables : ∀ t < n, ∀ u < n, t ≠ u → BoxBeside (box t) (box u)
  others : ∀ i s t, strokes[i]? = some s → own i = none → t < n → Covers (box t) s.bbox ∨ BoxBeside (box t) s.bbox

/-- At most one stroke per inner line. -/
structure OnePerLine (δ e : ℚ) (X Y : ℕ → ℚ) (r k : ℕ) (strokes : List St) : Prop where
  rows : strokes.Pairwise fun s t => ∀ i a b a' b', 0 < i → i < r → ¬ (OnRow δ e X Y r k s i a b ∧ OnRow δ e X Y r k t i a' b')
  cols : strokes.Pairwise fun s t => ∀ j a b a' b', 0 < j → j < k → ¬ (OnCol δ e X Y r k s j a b ∧ OnCol δ e X Y r k t j a' b')

end Spec
