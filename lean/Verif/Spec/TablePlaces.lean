import Verif.Spec.Positions
import Verif.Spec.Styled
/-! # Specification: where text and tables are in the document (C127) -/

namespace Spec
open Geom Py Pipe

/-- How a word processor sets the body of a section from `y` on: the bottoms of the last row of each paragraph and of each table. Blank paragraphs have the exact height written; `heights` are the heights
of the tables. -/
def bodyEnds {ι π : Type} (y : ℚ) (heights : List ℚ) : List (Docx.Item Pose.Par ι π) → List ℚ
  | [] => []
  | .para (some q) _ _ :: is => (y + setHeight q) :: bodyEnds (y + setHeight q + q.space.after) heights is
  | .para none s _ :: is => bodyEnds (y + s.getD 0) heights is
  | .sect _ _ :: is => bodyEnds y heights is
  | .table _ :: is => (y + heights.headD 0) :: bodyEnds (y + heights.headD 0) heights.tail is

/-- The bottom of the last of some lines. -/
def bottomOf (ls : List (Lay.Ln Tok)) : ℚ := ((ls.getLast?).map fun l => l.bbox.y1).getD 0

/-- The rounding of the distances of paragraphs with the given lines, one below the other: 0.05pt for each line and for the two distances of each paragraph. -/
def rounding (L : List (List (Lay.Ln Tok))) : ℚ := (L.map fun ls => (ls.length + 2 : ℚ) / 20).sum

end Spec
