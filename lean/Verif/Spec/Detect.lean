import Verif.Spec.PipePlain
import Verif.Spec.Columns
import Verif.Detect
/-! # Specification: pages without vector graphics -/

namespace Spec
open Geom Py Assign Pipe

variable {π : Type}

/-- The boxes of the lines of a page; of two or more blanks at an end of a line only one counts. -/
def lineBoxes (ws : Char → Bool) (p : Page π) : List Rect :=
  ((inBlocks ws p).flatMap Lns.Blk.lines).map fun l => (stripLine ws l).1.bbox

/-- Text that cannot be taken for two columns: all lines within the width of the working area; at least one beside its centre; and one across its centre that is neither
above nor below all those beside it. -/
structure Mixed (ws : Char → Bool) (p : Page π) : Prop where
  width : ∀ r ∈ lineBoxes ws p, p.work.x0 ≤ r.x0 ∧ r.x1 ≤ p.work.x1
  beside : ∃ r ∈ lineBoxes ws p, LeftOf ((p.work.x0 + p.work.x1) / 2) r ∨ RightOf ((p.work.x0 + p.work.x1) / 2) r
  across : ¬ TwoColumns ((p.work.x0 + p.work.x1) / 2) (lineBoxes ws p)

end Spec
