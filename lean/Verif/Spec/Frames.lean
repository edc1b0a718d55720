import Verif.Frames
import Verif.Spec.Pose
/-! # Specification: the columns of the tables of a document (C130) -/

namespace Spec
open Geom Pipe

/-- The edges of the columns of a row of cells that starts at `x`, if no cell is merged away. -/
def columnEdges (x : ℚ) : List (Option Pose.FrameCell) → List ℚ
  | [] => [x]
  | none :: r => x :: columnEdges x r
  | some c :: r => x :: columnEdges (x + c.width) r

/-- The tables found on a page: box, where there are cells, and the cells. -/
def foundTables : List Deco.Blk → List (Rect × List (List Bool) × List Full.CellInfo)
  | [] => []
  | .text .. :: bs => foundTables bs
  | .table b g cs :: bs => (b, g, cs.map fun x => x.1.info) :: foundTables bs

/-- A table as written, `left` to the right of the edge of the page, against one found on the page: it starts at its left edge, and has its cells, as wide as they are, with borders of their widths, and their background. -/
def AsFound (left : ℚ) (t : Rect × List (List Bool) × List Full.CellInfo) (w : Pose.Frame) : Prop :=
  left + w.indent = t.1.x0 ∧ w.cells = place t.2.1 (t.2.2.map fun x =>
    ⟨x.box.x1 - x.box.x0, ⟨if x.top = 0 then none else some (8 * x.top), if x.right = 0 then none else some (8 * x.right), if x.bottom = 0 then none else some (8 * x.bottom), if x.left = 0 then none else some (8 * x.left)⟩, x.bg⟩)

/-- Where the tables of a text have cells. -/
def cellsOf (ts : List (Spec.Tree Pose.Par)) : List (List (List Bool)) :=
  ts.filterMap fun
    | .table rows => some (rows.map fun r => r.map Option.isSome)
    | .text _ => none

end Spec
