import Verif.Spec.FullTable
import Verif.Spec.Columns
/-! # Specification: a page of text with drawings that are no table (C96) -/

namespace Spec
open Geom Py

variable {α : Type}

/-- Blocks of text, one below the other. -/
structure TextColumn (bs : List (Full.Blk α)) : Prop where
  text : ∀ b ∈ bs, PlainText b
  sources : bs.Pairwise OtherSource
  clear : bs.Pairwise fun a b => Clears a.bbox b.bbox

/-- The box lies within a line of text, as an underline does. -/
def InLine (bs : List (Full.Blk α)) (r : Rect) : Prop := ∃ b ∈ bs, ∃ l ∈ b.lines, Covers l.bbox r

/-- The area covers at most 70% of the box. -/
def CoversLittle (area box : Rect) : Prop := (area.inter box).area ≤ 7 / 10 * box.area

/-- Drawings that are no table: hyperlinks; lines within lines of text (underlines, strikes); other lines away from each other; filled areas that are white or cover no block and no line of text
for the greater part (highlighted words). -/
structure Harmless (d : ℚ) (bs : List (Full.Blk α)) (shapes : List Full.Sh) : Prop where
  real : ∀ s ∈ shapes, RealBox s.bbox
  strokes : (strokesOnly shapes).Pairwise fun a b => InLine bs a.bbox ∨ InLine bs b.bbox ∨ ¬ Props.Near d d a.bbox b.bbox
  fills : ∀ r c, Full.Sh.fill r c ∈ shapes → c = Full.white ∨ ∀ b ∈ bs, CoversLittle r b.bbox ∧ ∀ l ∈ b.lines, CoversLittle r l.bbox

/-- Boxes of everything on the page: lines of text and drawings. -/
def pageBoxes (bs : List (Full.Blk α)) (shapes : List Full.Sh) : List Rect := ((bs.flatMap Full.Blk.lines).map fun l => l.bbox) ++ shapes.map Full.Sh.bbox

/-- The page is not set in two columns: something lies across the centre beside something that lies left or right of it. -/
def NotTwoColumns (X : ℚ) (els : List Rect) : Prop := ∃ e ∈ els, ∃ c ∈ els, Across X e ∧ (LeftOf X c ∨ RightOf X c) ∧ c.y0 ≤ e.y1 ∧ e.y0 ≤ c.y1

end Spec
