import Verif.Table
import Verif.Spec.Table
/-! # Specification: a table drawn with ruled lines

A grid of `r` rows and `k` columns with horizontal lines at `Y 0 < … < Y r` and vertical lines at `X 0 < … < X k` is divided into rectangles (the cells). The
borders of the cells are drawn by strokes, each along one grid line from one grid position to another, in as many strokes as one likes. -/

namespace Spec
open Py Geom Table

/-- Stroke `s` is drawn along horizontal line `i` from vertical line `a` to vertical line `b`: its ends and its position (rounded to 0.1) deviate from the grid by
at most `δ`, the ends of its box by at most `e`. -/
structure OnRow (δ e : ℚ) (X Y : ℕ → ℚ) (r k : ℕ) (s : St) (i a b : ℕ) : Prop where
  line : i ≤ r
  le : b ≤ k
  lt : a < b
  flat : |s.y0 - s.y1| < 1 / 1000
  pos : |round1 s.y0 - Y i| ≤ δ
  start : |s.x0 - X a| ≤ δ
  stop : |s.x1 - X b| ≤ δ
  box0 : |s.bbox.x0 - X a| ≤ e
  box1 : |s.bbox.x1 - X b| ≤ e

/-- Stroke `s` is drawn along vertical line `j` from horizontal line `a` to horizontal line `b`. -/
structure OnCol (δ e : ℚ) (X Y : ℕ → ℚ) (r k : ℕ) (s : St) (j a b : ℕ) : Prop where
  line : j ≤ k
  le : b ≤ r
  lt : a < b
  flat : |s.x0 - s.x1| < 1 / 1000
  pos : |round1 s.x0 - X j| ≤ δ
  start : |s.y0 - Y a| ≤ δ
  stop : |s.y1 - Y b| ≤ δ
  box0 : |s.bbox.y0 - Y a| ≤ e
  box1 : |s.bbox.y1 - Y b| ≤ e

/-- The strokes draw the division `cell` of the grid (`cell i j` is the cell that contains square `(i, j)`). -/
structure Ruled (δ e gap : ℚ) (X Y : ℕ → ℚ) (r k : ℕ) (cell : ℕ → ℕ → GRect) (strokes : List St) : Prop where
  rows : 1 ≤ r
  cols : 1 ≤ k
  /-- Distance of neighbouring lines. -/
  gapX : ∀ j < k, X j + gap < X (j + 1)
  gapY : ∀ i < r, Y i + gap < Y (i + 1)
  /-- Each stroke lies on a grid line. -/
  each : ∀ s ∈ strokes, (∃ i a b, OnRow δ e X Y r k s i a b) ∨ (∃ j a b, OnCol δ e X Y r k s j a b)
  /-- The line above a square is drawn iff the square is in the first row of its cell. -/
  top : ∀ i < r, ∀ j < k, (∃ s ∈ strokes, ∃ a b, OnRow δ e X Y r k s i a b ∧ a ≤ j ∧ j < b) ↔ (cell i j).top = i
  /-- The line left of a square is drawn iff the square is in the first column of its cell. -/
  left : ∀ i < r, ∀ j < k, (∃ s ∈ strokes, ∃ a b, OnCol δ e X Y r k s j a b ∧ a ≤ i ∧ i < b) ↔ (cell i j).left = j
  /-- The bottom and right sides of the table are drawn. -/
  bottom : ∀ j < k, ∃ s ∈ strokes, ∃ a b, OnRow δ e X Y r k s r a b ∧ a ≤ j ∧ j < b
  right : ∀ i < r, ∃ s ∈ strokes, ∃ a b, OnCol δ e X Y r k s k a b ∧ a ≤ i ∧ i < b
  /-- Each grid line is a side of a cell. -/
  usedRow : ∀ i < r, ∃ j < k, (cell i j).top = i
  usedCol : ∀ j < k, ∃ i < r, (cell i j).left = j

/-- The strokes of each inner grid line are given in the order of their starts. -/
structure InOrder (δ e : ℚ) (X Y : ℕ → ℚ) (r k : ℕ) (strokes : List St) : Prop where
  rows : strokes.Pairwise fun s t => ∀ i a b a' b', 0 < i → i < r → OnRow δ e X Y r k s i a b → OnRow δ e X Y r k t i a' b' → a ≤ a'
  cols : strokes.Pairwise fun s t => ∀ j a b a' b', 0 < j → j < k → OnCol δ e X Y r k s j a b → OnCol δ e X Y r k t j a' b' → a ≤ a'

/-- The parsed table has exactly the cells of the division: `r` rows of `k` entries; at the first square of each cell its spans and its box (each side within `t` of
the grid line), elsewhere nothing. -/
def ShowsCells (t : ℚ) (X Y : ℕ → ℚ) (r k : ℕ) (cell : ℕ → ℕ → GRect) (table : List (List CellOut)) : Prop :=
  table.length = r ∧ (∀ row ∈ table, row.length = k) ∧ ∀ i < r, ∀ j < k,
    let q := cell i j
    if q.top = i ∧ q.left = j then
      ∃ box : Rect, (table.getD i []).getD j none = some ((q.bot - q.top, q.right - q.left), box) ∧
        |box.x0 - X q.left| ≤ t ∧ |box.y0 - Y q.top| ≤ t ∧ |box.x1 - X q.right| ≤ t ∧ |box.y1 - Y q.bot| ≤ t
    else (table.getD i []).getD j none = none

/-- Distances: tolerance of the drawing, clearance of lines, reach of the boxes, border width. -/
structure Clear (c w δ e gap : ℚ) : Prop where
  δ0 : 0 ≤ δ
  e0 : 0 ≤ e
  same : 2 * δ ≤ c
  apart : c + 2 * δ ≤ gap
  boxes : 2 * e + 4 * δ + 1 / 5 ≤ gap
  frame : 2 * δ + 1 / 20 ≤ w

/-- A stroke of width `w` from `(X a, Y i)` to `(X b, Y i)`, for `p = (i, a, b)`; its box is the painted area, rounded to 0.1. -/
def rowSegment (X Y : ℕ → ℚ) (w : ℚ) (p : ℕ × ℕ × ℕ) : St :=
  ⟨X p.2.1, Y p.1, X p.2.2, Y p.1, (⟨X p.2.1 + -(w / 2), Y p.1 + -(w / 2), X p.2.2 + w / 2, Y p.1 + w / 2⟩ : Rect).round, w, 0⟩

/-- A stroke of width `w` from `(X j, Y a)` to `(X j, Y b)`, for `p = (j, a, b)`. -/
def colSegment (X Y : ℕ → ℚ) (w : ℚ) (p : ℕ × ℕ × ℕ) : St :=
  ⟨X p.1, Y p.2.1, X p.1, Y p.2.2, (⟨X p.1 + -(w / 2), Y p.2.1 + -(w / 2), X p.1 + w / 2, Y p.2.2 + w / 2⟩ : Rect).round, w, 0⟩

/-- A segment of a grid line: direction, width, and `(line, from, to)`. -/
structure Seg where
  hor : Bool
  width : ℚ
  line : ℕ
  a : ℕ
  b : ℕ
  deriving DecidableEq, Repr

/-- The stroke drawn for a segment. -/
def Seg.stroke (X Y : ℕ → ℚ) (g : Seg) : St :=
  if g.hor then rowSegment X Y g.width (g.line, g.a, g.b) else colSegment X Y g.width (g.line, g.a, g.b)

/-- The segments draw the borders of the cells of a division of an `r × k` grid. -/
structure DrawsCells (r k : ℕ) (cell : ℕ → ℕ → GRect) (segs : List Seg) : Prop where
  rows : 1 ≤ r
  cols : 1 ≤ k
  each : ∀ g ∈ segs, g.a < g.b ∧ (g.hor = true → g.line ≤ r ∧ g.b ≤ k) ∧ (g.hor = false → g.line ≤ k ∧ g.b ≤ r)
  top : ∀ i < r, ∀ j < k, (∃ g ∈ segs, g.hor = true ∧ g.line = i ∧ g.a ≤ j ∧ j < g.b) ↔ (cell i j).top = i
  left : ∀ i < r, ∀ j < k, (∃ g ∈ segs, g.hor = false ∧ g.line = j ∧ g.a ≤ i ∧ i < g.b) ↔ (cell i j).left = j
  bottom : ∀ j < k, ∃ g ∈ segs, g.hor = true ∧ g.line = r ∧ g.a ≤ j ∧ j < g.b
  right : ∀ i < r, ∃ g ∈ segs, g.hor = false ∧ g.line = k ∧ g.a ≤ i ∧ i < g.b
  usedRow : ∀ i < r, ∃ j < k, (cell i j).top = i
  usedCol : ∀ j < k, ∃ i < r, (cell i j).left = j

/-- The segments of each inner line come in the order of their starts. -/
def SegsInOrder (r k : ℕ) (segs : List Seg) : Prop :=
  segs.Pairwise fun g h => g.hor = h.hor → g.line = h.line → 0 < g.line → g.line < (if g.hor then r else k) → g.a ≤ h.a

end Spec
