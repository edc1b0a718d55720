import Verif.Full
import Verif.Spec.Layout
import Verif.Spec.PipePlain
import Verif.Spec.RuledGrid
/-! # Specification: a page of text with one drawn table (C92) -/

namespace Spec
open Geom Py

variable {α : Type}

/-- One box lies below the other, with space between. -/
def Clears (a b : Rect) : Prop := a.y1 < b.y0 ∨ b.y1 < a.y0

instance (a b : Rect) : Decidable (Clears a b) := by unfold Clears; infer_instance

/-- A block of horizontal lines. Its box is the smallest one around its lines, and its lines know the block they were extracted with. -/
structure LineText (b : Full.Blk α) : Prop where
  text : b.isText = true
  boxes : TextOK (b.bbox, b.lines)
  nonempty : b.lines ≠ []
  hull : IsHull (b.lines.map fun l => l.bbox) b.bbox
  horizontal : ∀ l ∈ b.lines, l.dir = .leftRight
  source : ∀ l ∈ b.lines, l.pid ≠ none

/-- Lines one below the other, listed in any order; between two lines extracted with the same block there is none of another block. -/
structure LineColumn (ls : List (Lay.Ln α)) : Prop where
  apart : ls.Pairwise fun l m => Above l.bbox m.bbox ∨ Above m.bbox l.bbox
  unmixed : ∀ l ∈ ls, ∀ m ∈ ls, ∀ n ∈ ls, Above l.bbox m.bbox → Above m.bbox n.bbox → l.pid = n.pid → m.pid = l.pid

/-- A block of horizontal lines, one below the other. -/
structure PlainText (b : Full.Blk α) : Prop extends LineText b where
  column : LineColumn b.lines

/-- The lines of two blocks come from different blocks. -/
def OtherSource (a b : Full.Blk α) : Prop := ∀ l ∈ a.lines, ∀ m ∈ b.lines, l.pid ≠ m.pid

/-- The blocks are text, and show exactly the given lines, from top to bottom. -/
def ShowsDown (bs : List (Full.Blk α)) (ls : List (Lay.Ln α)) : Prop :=
  (∀ b ∈ bs, b.isText = true) ∧ (bs.flatMap Full.Blk.lines).Perm ls ∧ (bs.flatMap Full.Blk.lines).Pairwise fun l m => Above l.bbox m.bbox

/-- Cell `(i, j)` of a grid, and all cells row by row. -/
def gridCell (X Y : ℕ → ℚ) (i j : ℕ) : Rect := ⟨X j, Y i, X (j + 1), Y (i + 1)⟩
def gridCells (X Y : ℕ → ℚ) (r k : ℕ) : List Rect := (List.range r).flatMap fun i => (List.range k).map fun j => gridCell X Y i j

/-- `r` rows of `k` cells, none merged. -/
def fullGrid (r k : ℕ) : List (List Bool) := List.replicate r (List.replicate k true)

/-- The box of a grid. -/
def gridBox (X Y : ℕ → ℚ) (r k : ℕ) : Rect := ⟨X 0, Y 0, X k, Y r⟩

/-- Text on a page with a table: blocks above the table, below it, or in it. -/
structure TextAround (X Y : ℕ → ℚ) (r k : ℕ) (W : ℚ) (bs : List (Full.Blk α)) : Prop where
  text : ∀ b ∈ bs, LineText b
  sources : bs.Pairwise OtherSource
  /-- Above, below or inside. -/
  place : ∀ b ∈ bs, b.bbox.y1 < Y 0 - W / 2 ∨ Y r + W / 2 < b.bbox.y0 ∨ Covers (gridBox X Y r k) b.bbox
  /-- Outside the table: one column. -/
  plain : ∀ b ∈ bs, ¬ Covers (gridBox X Y r k) b.bbox → PlainText b
  clear : bs.Pairwise fun a b => ¬ Covers (gridBox X Y r k) a.bbox → ¬ Covers (gridBox X Y r k) b.bbox → Clears a.bbox b.bbox
  /-- Inside the table: each line in a cell. -/
  inCell : ∀ b ∈ bs, Covers (gridBox X Y r k) b.bbox → ∀ l ∈ b.lines, ∃ i < r, ∃ j < k, Covers (gridCell X Y i j) l.bbox
  /-- Within a cell: what comes from a block is a column. (A block may have lines side by side, in different cells.) -/
  cellColumn : ∀ b ∈ bs, Covers (gridBox X Y r k) b.bbox → ∀ i < r, ∀ j < k, LineColumn (b.lines.filter fun l => decide (Covers (gridCell X Y i j) l.bbox))
  /-- A block that is nearly in a cell is in the cell. -/
  whole : ∀ b ∈ bs, ∀ i < r, ∀ j < k, Mostly (gridCell X Y i j) b.bbox → Covers (gridCell X Y i j) b.bbox
  /-- Within a cell: what comes from one block is clear of what comes from another. -/
  order : bs.Pairwise fun a b => ∀ i < r, ∀ j < k,
    (∀ l ∈ a.lines, ∀ m ∈ b.lines, Covers (gridCell X Y i j) l.bbox → Covers (gridCell X Y i j) m.bbox → l.bbox.y1 < m.bbox.y0) ∨
    (∀ l ∈ a.lines, ∀ m ∈ b.lines, Covers (gridCell X Y i j) l.bbox → Covers (gridCell X Y i j) m.bbox → m.bbox.y1 < l.bbox.y0)

/-- The strokes among shapes. -/
def strokesOnly (shapes : List Full.Sh) : List Table.St := shapes.filterMap fun s => match s with | .stroke s => some s | _ => none

/-- Cell `(i, j)` between its borders of width `W`. -/
def innerCell (X Y : ℕ → ℚ) (W : ℚ) (i j : ℕ) : Rect := ⟨X j + W / 2, Y i + W / 2, X (j + 1) - W / 2, Y (i + 1) - W / 2⟩

/-- A coloured area behind cells of a table, each covered (at least between its borders) or not touched by it; it overlaps no other area drawn in the table. `lines` are the lines of text. -/
structure CellPaint (X Y : ℕ → ℚ) (r k : ℕ) (W : ℚ) (lines : List Rect) (shapes : List Full.Sh) (b : Rect) (c : ℕ) : Prop where
  within : Covers (gridFrame X Y r k W) b
  cells : ∀ i < r, ∀ j < k, Covers b (innerCell X Y W i j) ∨ Apart b (gridCell X Y i j)
  some_ : ∃ i < r, ∃ j < k, Covers b (innerCell X Y W i j)
  /-- Text in a coloured cell is on the colour. -/
  text : ∀ i < r, ∀ j < k, Covers b (innerCell X Y W i j) → ∀ l ∈ lines, Covers (gridCell X Y i j) l → Covers b l
  alone : ∀ b' c', Full.Sh.fill b' c' ∈ shapes → (b', c') ≠ (b, c) → Covers (gridFrame X Y r k W) b' → Apart b b'
  /-- Cells are wider and higher than 5pt and than six times the width of the lines, which is at most 2pt. -/
  sizeX : ∀ j < k, X j + 5 < X (j + 1) ∧ X j + 6 * W < X (j + 1)
  sizeY : ∀ i < r, Y i + 5 < Y (i + 1) ∧ Y i + 6 * W < Y (i + 1)
  thin : W ≤ 2

/-- Drawings on a page with a table: the lines of the grid (in any order), hyperlinks, and other lines away from the grid lines and from each other; filled areas are white or behind cells of the table. -/
structure DrawnAround (d : ℚ) (X Y : ℕ → ℚ) (r k : ℕ) (W : ℚ) (lines : List Rect) (others : List Table.St) (shapes : List Full.Sh) : Prop where
  strokes : (strokesOnly shapes).Perm (gridStrokes X Y r k W ++ others)
  others : OtherLines d X Y r k W others
  fills : ∀ b c, Full.Sh.fill b c ∈ shapes → c = Full.white ∨ CellPaint X Y r k W lines shapes b c
  real : ∀ s ∈ shapes, RealBox s.bbox

/-- The boxes of the lines of text. -/
def lineRects (bs : List (Full.Blk α)) : List Rect := (bs.flatMap Full.Blk.lines).map fun l => l.bbox

/-- The content lies within the width of the page, and the table lies across the centre of the page, its left side left of it. -/
structure OnPage (page : Rect) (X : ℕ → ℚ) (k : ℕ) (W : ℚ) (shapes : List Full.Sh) (bs : List (Full.Blk α)) : Prop where
  shapes : ∀ s ∈ shapes, page.x0 ≤ s.bbox.x0 ∧ s.bbox.x1 ≤ page.x1
  lines : ∀ b ∈ bs, ∀ l ∈ b.lines, page.x0 ≤ l.bbox.x0 ∧ l.bbox.x1 ≤ page.x1
  left : X 0 + W / 2 < (page.x0 + page.x1) / 2
  right : (page.x0 + page.x1) / 2 ≤ X k + W / 2

end Spec
