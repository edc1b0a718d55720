import Verif.Table
/-! # Model of the two-column page layout: `TablesConstructor.page_layout_table` (table/TablesConstructor.py L42-97)

Lines of text and shapes are seen through their boxes. -/

namespace Columns
open Py Geom Table

/-- `X`, the centre of the working area (TablesConstructor.py L67-68). -/
def centre (page : Rect) : ℚ := (page.x0 + page.x1) / 2

/-- Elements beside the centre line (L69-70), and elements on it (L71-72). Elements without box are not collected
(`Collection.extend`/`append`, common/Collection.py L160-172, L175-178). -/
def columnEls (page : Rect) (els : List Rect) : List Rect :=
  (els.filter Rect.truthy).filter fun r => decide (r.x1 < centre page) || decide (centre page < r.x0)
def spanEls (page : Rect) (els : List Rect) : List Rect :=
  (els.filter Rect.truthy).filter fun r => decide (r.x0 ≤ centre page ∧ centre page ≤ r.x1)

/-- The check of the elements on the centre line (L75-76). -/
def free (page : Rect) (els : List Rect) : Bool :=
  let b := Coll.bbox (columnEls page els)
  (spanEls page els).all fun e => decide (e.y1 < b.y0) || decide (b.y1 < e.y0)

/-- The dummy strokes (L79-86): top, bottom, left, right, centre. `constants.MAJOR_DIST = 5`. -/
def fiveLines (m0 n0 m1 n1 X : ℚ) : List St :=
  [St.line ⟨m0, n0, m1, n0⟩, St.line ⟨m0, n1, m1, n1⟩, St.line ⟨m0, n0, m0, n1⟩, St.line ⟨m1, n0, m1, n1⟩, St.line ⟨X, n0, X, n1⟩]

def strokes (page : Rect) (els : List Rect) : List St :=
  let b := Coll.bbox (columnEls page els)
  fiveLines ((page.x0 + b.x0) / 2) (b.y0 - 5) ((page.x1 + b.x1) / 2) (b.y1 + 5) (centre page)

/-- Rows of the table made for the page (L75-93), `[]` if there is none; the default settings of `TableStructure` (table/TableStructure.py
L163-166) are 2 and 6. -/
def pageTable (page : Rect) (els : List Rect) : Except Err (List (List CellOut)) :=
  if free page els then parse 2 6 (strokes page els) else .ok []

/-- Box of a `TableBlock` (table/Rows.py, common/Element.py L118-127): union of the boxes of its rows. -/
def tableBox (rows : List (List CellOut)) : Rect := rows.foldl (fun b r => Coll.unionBbox b (rowBox r)) Rect.zero

end Columns
