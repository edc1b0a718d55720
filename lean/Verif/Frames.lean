import Verif.Pose
import Verif.CellDocx
/-! # What is written of a table besides its contents

Models the part of `TableBlock.make_docx` (table/TableBlock.py L154-165) that sets the indent (`indent_table`, common/docx.py L307-319), and for each cell the width, the
borders and the background (`Cell.make_docx`, `Cell._set_style`, table/Cell.py L144-229), for the tables of a page, not those nested in them. How `python-docx` gets there cell by cell, merging included, is in `CellDocx.lean`; here
each cell has what it ends up with (`C87_cell_style`).

Simplifications: colours of borders, and row heights are left out; lengths are not truncated to English Metric Units. -/

namespace Pose
open Geom Py Pipe

/-- A cell as written: width, `w:sz` of its borders, background colour (eighths of a point; a border without width is not written, Cell.py L198-207). -/
structure FrameCell where
  width : ℚ
  borders : CellDocx.Sides (Option ℚ)
  shading : Option ℕ
  deriving DecidableEq

/-- A table as written: indent, rows of cells (`none` if merged away). -/
structure Frame where
  indent : ℚ
  cells : List (List (Option FrameCell))
  deriving DecidableEq

/-- `w:sz` of a border (Cell.py L198-207). -/
def borderSize (w : ℚ) : Option ℚ := if w = 0 then none else some (8 * w)

/-- A cell (Cell.py L164-170, L198-217). -/
def frameCell (c : Full.CellInfo) : FrameCell := ⟨c.box.x1 - c.box.x0, ⟨borderSize c.top, borderSize c.right, borderSize c.bottom, borderSize c.left⟩, c.bg⟩

/-- The tables of a layout (page/Blocks.py L434-455, the tables only). -/
def frames : List Blk → List Frame
  | [] => []
  | .text _ :: bs => frames bs
  | .table _ indent _ g cs :: bs => ⟨indent, place g (cs.map fun x => frameCell x.1.info)⟩ :: frames bs

/-- The blocks written for a page: `parsePage` up to the layout (page/Page.py L143-156). -/
def pageLayout (c : Cfg) (depth : ℕ) (p : Page) : Except Err (List Blk) :=
  match cleanUp c.whole.pipe p.box p.raw with
  | .error e => .error e
  | .ok r =>
    match Deco.layout c.whole.full p.uri p.ids depth (p.workOf c r.1) p.shapes (r.1.map fun b => .text b.bbox b.lines) with
    | .error e => .error e
    | .ok bs => layout c (p.workOf c r.1) bs.1

/-- The tables written for each page of a document. -/
def convertFrames (c : Cfg) (depth : ℕ) (pages : List Page) : Except Err (List (List Frame)) :=
  match pages.mapM (pageLayout c depth) with
  | .error e => .error e
  | .ok xs => .ok (xs.map frames)

end Pose
