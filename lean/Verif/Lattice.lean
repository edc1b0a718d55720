import Verif.Stream
import Verif.Sweep
/-! # Model of tables with drawn borders: `TablesConstructor.lattice_tables` (table/TablesConstructor.py L100-161) -/

namespace Lattice
open Py Geom

/-- The instance kept of a group (`remove_overlap`, L122-129): the last one when sorted by area; a group of one is kept. -/
def largest {α : Type} (box : α → Rect) (g : List α) : Option α := (sortBy (fun x => (box x).area) g).getLast?

/-- `remove_overlap` (L113-133): one instance of each group of instances linked by containment. -/
def removeOverlap {α : Type} (iter : List ℕ → List ℕ) (box : α → Rect) (l : List α) : List α :=
  (Stream.groups iter (fun a b => (box a).contains (box b) || (box b).contains (box a)) l).filterMap (largest box)

/-- `group_by_connectivity` (L136-137, common/Collection.py L81-117): the groups of strokes; `iter` is the iteration order of a set. -/
def strokeGroups (iter : List ℕ → List ℕ) (d : ℚ) (strokes : List Table.St) : List (List Table.St) :=
  match Sweep.groupIdx d d (strokes.map Table.St.bbox) with
  | .ok gs => gs.map fun g => (iter g).filterMap (strokes[·]?)
  | .error _ => []

/-- Box of a group (common/Collection.py L30-37). -/
def box (g : List Table.St) : Rect := Coll.bbox (g.map Table.St.bbox)

/-- The tables found (L136-158): strokes of each table and the fills offered to it as shadings (L151). -/
def candidates (iter : List ℕ → List ℕ) (d : ℚ) (strokes : List Table.St) (fills : List Rect) : List (List Table.St × List Rect) :=
  (removeOverlap iter box (strokeGroups iter d strokes)).map fun g => (g, fills.filter fun f => (box g).contains f)

/-- `TableStructure(strokes, settings).parse(group_fills).to_table_block()` for each (L149-158); an exception in one ends the loop. Empty tables are
left out. -/
def tables (iter : List ℕ → List ℕ) (d c maxWidth : ℚ) (strokes : List Table.St) : Except Err (List (List (List Table.CellOut))) :=
  ((removeOverlap iter box (strokeGroups iter d strokes)).mapM (Table.parse c maxWidth)).map fun ts => ts.filter fun t => !t.isEmpty

end Lattice
