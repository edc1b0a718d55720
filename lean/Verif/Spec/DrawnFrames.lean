import Verif.NestedFrames
/-! # Specification: the style of written cells is drawn (C133) -/

namespace Spec
open Geom

mutual
/-- Every cell of a table as written, and of the tables in its cells, at any depth. -/
def EachWritten (P : Pose.FrameCell → Prop) : Pose.Tab → Prop
  | .mk f inner => (∀ row ∈ f.cells, ∀ c, some c ∈ row → P c) ∧ EachWrittenCells P inner
def EachWrittenIn (P : Pose.FrameCell → Prop) : List Pose.Tab → Prop
  | [] => True
  | t :: ts => EachWritten P t ∧ EachWrittenIn P ts
def EachWrittenCells (P : Pose.FrameCell → Prop) : List (List Pose.Tab) → Prop
  | [] => True
  | ts :: cs => EachWrittenIn P ts ∧ EachWrittenCells P cs
end

/-- A border of this size (in eighths of a point) as written: a line of this direction and width is drawn. -/
def BorderDrawn (shapes : List Full.Sh) (horizontal : Bool) (size : Option ℚ) : Prop :=
  ∀ w, size = some w → ∃ s : Table.St, Full.Sh.stroke s ∈ shapes ∧ w = 8 * s.width ∧ (if horizontal then |s.y0 - s.y1| < 1 / 1000 else ¬ |s.y0 - s.y1| < 1 / 1000)

/-- The borders of a cell as written are as wide as lines drawn in their direction, and the background has the colour of an area drawn. -/
structure CellStyleDrawn (shapes : List Full.Sh) (c : Pose.FrameCell) : Prop where
  top : BorderDrawn shapes true c.borders.top
  bottom : BorderDrawn shapes true c.borders.bottom
  left : BorderDrawn shapes false c.borders.left
  right : BorderDrawn shapes false c.borders.right
  shading : ∀ k, c.shading = some k → ∃ f, Full.Sh.fill f k ∈ shapes

end Spec
