import Verif.Stream
import Mathlib.Data.List.SplitOn
/-! # Specification: which blocks make a stream table -/

namespace Spec
open Geom Stream

/-- Two blocks lie in one row (theorems C25). -/
def sameRow (a b : SBlock) : Bool := a.el.horizontallyAlign b.el 0 true

/-- Each block together with whether it belongs to a table: it is not in flow layout, or it lies in one row with the block before or after it.
`prev`: it lies in one row with the block before. -/
def marks (prev : Bool) : List SBlock → List (Bool × SBlock)
  | [] => []
  | [b] => [(prev || !b.flow, b)]
  | b :: n :: bs => (prev || !b.flow || sameRow b n, b) :: marks (sameRow b n) (n :: bs)

/-- The lines (with a box) of a run of blocks. -/
def runLines (run : List (Bool × SBlock)) : List El := run.flatMap fun m => m.2.lines.filter El.truthy

/-- The tables: the lines of each maximal run of consecutive blocks that belong to a table. -/
def tablesOf (bs : List SBlock) : List (List El) :=
  (((marks false bs).splitOnP fun m => !m.1).map runLines).filter fun t => !t.isEmpty

end Spec
