import Verif.Spec.Draw
/-! # Specification: lines and filled rectangles drawn on a page (C112) -/

namespace Spec
open Geom Py Path

/-- The area painted by a filled rectangle (to 0.1pt). -/
def itemFills (c : ℕ) : Item → List Full.Sh
  | .re r => [.fill r.round c]
  | _ => []

/-- What a drawing paints: its lines, and the areas of its rectangles if it is filled. -/
def drawnShapes (p : Path.Raw) : List Full.Sh :=
  (drawnStrokes p).map Full.Sh.stroke ++
    match p.fill with
    | some c => p.items.flatMap (itemFills c)
    | none => []

/-- A drawing of horizontal and vertical lines and rectangles as `Straight`; or of filled rectangles. -/
structure BoxDrawing (p : Path.Raw) : Prop where
  lines : Straight { p with fill := none }
  filled : p.fill ≠ none → ∀ it ∈ p.items, ∃ r, it = .re r

/-- The line through the middle of a box, along its longer side, as wide as the box. -/
def midLine (b : Rect) (c : ℕ) : Table.St :=
  if b.y1 - b.y0 ≤ b.x1 - b.x0 then ⟨b.x0, (b.y0 + b.y1) / 2, b.x1, (b.y0 + b.y1) / 2, b, b.y1 - b.y0, c⟩
  else ⟨(b.x0 + b.x1) / 2, b.y0, (b.x0 + b.x1) / 2, b.y1, b, b.x1 - b.x0, c⟩

/-- A filled area not wider than `m` is a line. -/
def asLine (m : ℚ) : Full.Sh → Full.Sh
  | .fill b c => if m < b.x1 - b.x0 ∧ m < b.y1 - b.y0 then .fill b c else .stroke (midLine b c)
  | s => s

/-- Colour of a shape. -/
def inkOf : Full.Sh → ℕ
  | .stroke s => s.color
  | .fill _ c => c
  | .link _ => 0

/-- Two shapes of different colour, or with a common area of less than the share `t` of the smaller one. -/
def Separate (t : ℚ) (s u : Full.Sh) : Prop := inkOf s ≠ inkOf u ∨ commonArea s.bbox u.bbox < t * min s.bbox.area u.bbox.area

/-- The centre line of a stroke runs through the middle of its box, along its longer side, from end to end. -/
def Centred (s : Table.St) : Prop :=
  if s.bbox.y1 - s.bbox.y0 ≤ s.bbox.x1 - s.bbox.x0 then s.x0 = s.bbox.x0 ∧ s.x1 = s.bbox.x1 ∧ s.y0 = (s.bbox.y0 + s.bbox.y1) / 2 ∧ s.y1 = (s.bbox.y0 + s.bbox.y1) / 2
  else s.y0 = s.bbox.y0 ∧ s.y1 = s.bbox.y1 ∧ s.x0 = (s.bbox.x0 + s.bbox.x1) / 2 ∧ s.x1 = (s.bbox.x0 + s.bbox.x1) / 2

end Spec
