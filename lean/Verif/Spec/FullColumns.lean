import Verif.Spec.FullText
/-! # Specification: a page of text in two columns (C124) -/

namespace Spec
open Geom Py

variable {α : Type}

/-- Lines of two blocks on the given side: those of one block all above those of the other. -/
def DownIn (side : Rect → Prop) (a b : Full.Blk α) : Prop :=
  (∀ l ∈ a.lines, ∀ m ∈ b.lines, side l.bbox → side m.bbox → l.bbox.y1 < m.bbox.y0) ∨
  (∀ l ∈ a.lines, ∀ m ∈ b.lines, side l.bbox → side m.bbox → m.bbox.y1 < l.bbox.y0)

/-- Text in two columns left and right of `X`, with headings and notes across. -/
structure TwoColumnText (X : ℚ) (bs : List (Full.Blk α)) : Prop where
  text : ∀ b ∈ bs, LineText b
  sources : bs.Pairwise OtherSource
  /-- A block has lines in the columns only, or it is a heading or note: its lines go across the centre, and it is more than 5pt above all lines in the columns, or below. -/
  place : ∀ b ∈ bs, (∀ l ∈ b.lines, LeftOf X l.bbox ∨ RightOf X l.bbox) ∨
    PlainText b ∧ (∀ l ∈ b.lines, Across X l.bbox) ∧
      ((∀ a ∈ bs, ∀ m ∈ a.lines, ¬ Across X m.bbox → b.bbox.y1 + 5 < m.bbox.y0) ∨ (∀ a ∈ bs, ∀ m ∈ a.lines, ¬ Across X m.bbox → m.bbox.y1 + 5 < b.bbox.y0))
  /-- Headings and notes are one below the other. -/
  clear : bs.Pairwise fun a b => (∀ l ∈ a.lines, Across X l.bbox) → (∀ l ∈ b.lines, Across X l.bbox) → Clears a.bbox b.bbox
  /-- There is something in both columns. -/
  left : ∃ b ∈ bs, ∃ l ∈ b.lines, LeftOf X l.bbox
  right : ∃ b ∈ bs, ∃ l ∈ b.lines, RightOf X l.bbox
  /-- Within a column: lines one below the other, blocks one below the other. (A block may have lines in both columns, side by side.) -/
  leftColumn : ∀ b ∈ bs, LineColumn (b.lines.filter fun l => decide (LeftOf X l.bbox))
  rightColumn : ∀ b ∈ bs, LineColumn (b.lines.filter fun l => decide (RightOf X l.bbox))
  leftOrder : bs.Pairwise (DownIn (LeftOf X))
  rightOrder : bs.Pairwise (DownIn (RightOf X))
  /-- A block with lines in both columns reaches at least a tenth of its width (and 0.1pt) into either. -/
  reach : ∀ b ∈ bs, ∀ l ∈ b.lines, ∀ m ∈ b.lines, LeftOf X l.bbox → RightOf X m.bbox →
    (b.bbox.x1 - b.bbox.x0) / 10 + 1 / 10 ≤ X - b.bbox.x0 ∧ (b.bbox.x1 - b.bbox.x0) / 10 + 1 / 10 ≤ b.bbox.x1 - X

/-- The shapes are links on lines of text; one on a heading or note goes across the centre too. -/
def LinksOnly (X : ℚ) (bs : List (Full.Blk α)) (shapes : List Full.Sh) : Prop :=
  ∀ s ∈ shapes, ∃ r, s = .link r ∧ RealBox r ∧ ∃ b ∈ bs, ∃ l ∈ b.lines, Covers l.bbox r ∧ (Across X l.bbox → Across X r)

end Spec
