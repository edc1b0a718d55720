import Verif.Frames
/-! # What is written of tables in tables

As `Frames.lean`, with the tables in the cells (`self.layout.blocks.make_docx`, table/Cell.py L172-179; `NestedTable`, table/TableBlock.py L126-165). Same simplifications. -/

namespace Pose
open Geom Py Pipe

/-- A table as written, with the tables in its cells, cell by cell. -/
inductive Tab where
  | mk (frame : Frame) (inner : List (List Tab))

mutual
/-- A block: its table, if it is one (page/Blocks.py L434-455; table/TableBlock.py L154-165). -/
def tab : Blk → List Tab
  | .text _ => []
  | .table _ indent _ g cs => [⟨⟨indent, place g (cs.map fun x => frameCell x.1.info)⟩, tabCells cs⟩]

/-- The tables of a layout (page/Blocks.py L434-455). -/
def tabs : List Blk → List Tab
  | [] => []
  | b :: bs => tab b ++ tabs bs

/-- The tables in the cells (table/Cell.py L172-179). -/
def tabCells : List (Full.Cell × List Blk) → List (List Tab)
  | [] => []
  | (_, bs) :: cs => tabs bs :: tabCells cs
end

/-- The tables written for each page of a document, with those in their cells. -/
def convertTabs (c : Cfg) (depth : ℕ) (pages : List Page) : Except Err (List (List Tab)) :=
  match pages.mapM (pageLayout c depth) with
  | .error e => .error e
  | .ok xs => .ok (xs.map tabs)

end Pose
