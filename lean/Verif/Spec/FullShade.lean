import Verif.Spec.FullText
/-! # Specification: text on a coloured area (C97) -/

namespace Spec
open Geom Py

variable {α : Type}

/-- A page of text with a coloured area behind some of it. Its other drawings are hyperlinks, lines within lines of text (underlines, strikes) and areas that cover no block and no line of text
for the greater part (highlighted words). -/
structure OnArea (F : Rect) (color : ℕ) (bs : List (Full.Blk α)) (shapes : List Full.Sh) : Prop where
  real : ∀ s ∈ shapes, RealBox s.bbox
  /-- The area is drawn, once; it is neither black nor white. -/
  area : shapes.count (.fill F color) = 1
  visible : color ≠ 0 ∧ color ≠ Full.white
  fills : ∀ r c, Full.Sh.fill r c ∈ shapes → (r, c) = (F, color) ∨ ∀ b ∈ bs, CoversLittle r b.bbox ∧ ∀ l ∈ b.lines, CoversLittle r l.bbox
  strokes : ∀ s, Full.Sh.stroke s ∈ shapes → InLine bs s.bbox
  /-- Each block lies on the area, above it or below it; some block lies on it. -/
  place : ∀ b ∈ bs, Covers F b.bbox ∨ b.bbox.y1 < F.y0 ∨ F.y1 < b.bbox.y0
  some_ : ∃ b ∈ bs, Covers F b.bbox
  /-- The lines on the area are more than 1pt wide and high, and are not beside each other. -/
  size : ∀ b ∈ bs, Covers F b.bbox → ∀ l ∈ b.lines, l.bbox.x0 + 1 < l.bbox.x1 ∧ l.bbox.y0 + 1 < l.bbox.y1
  column : ∀ a ∈ bs, Covers F a.bbox → ∀ b ∈ bs, Covers F b.bbox → ∀ l ∈ a.lines, ∀ m ∈ b.lines, max l.bbox.x0 m.bbox.x0 ≤ min l.bbox.x1 m.bbox.x1

end Spec
