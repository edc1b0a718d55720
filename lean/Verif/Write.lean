import Verif.Spacing
import Verif.Table
/-! # Lengths written to the docx file

`text/TextBlock.py` L270-281, `table/Row.py` L58-77, `image/Image.py` L94-97, `image/ImageBlock.py` L84-98, `common/docx.py` L201-217 and L285-303. `python-docx` (assumed
semantics): `Pt(x)` is `int(x * 12700)` English Metric Units; `image.scaled_dimensions(width, None)` is `width` and `int(round(height * (width / image.width)))`. -/

namespace Write
open Py Geom Spacing

/-- The vertical distances written for a paragraph: `before_spacing`, `after_spacing`, `line_spacing` (text/TextBlock.py L273-281). -/
def written (s : Sp) : Sp := ⟨max (round1 s.before) 0, max (round1 s.after) 0, round1 s.line⟩

/-- The distances of a block as written; those of a table are written as blank paragraphs (`Docx.spacer`). -/
def writtenBlock (x : VB × Sp) : VB × Sp := if x.1.kind = .table then x else (x.1, written x.2)

/-- `docx.shared.Pt`. -/
def pt (x : ℚ) : ℤ := trunc (x * 12700)

/-- A picture in the docx: position on the page (floating pictures only), width, height; all in English Metric Units. -/
structure Pic where
  pos : Option (ℤ × ℤ)
  cx : ℤ
  cy : ℤ
  deriving DecidableEq

/-- Height for a given width of a picture of the size `w`, `h` (`scaled_dimensions`). -/
def scaled (w h : ℤ) (cx : ℤ) : ℤ := roundHE (h * ((cx : ℚ) / w))

/-- `add_image` (common/docx.py L201-217), from `Image.make_docx` (image/Image.py L94-97). -/
def inlineImage (box : Rect) (w h : ℤ) : Pic := ⟨none, pt (box.x1 - box.x0), scaled w h (pt (box.x1 - box.x0))⟩

/-- `add_float_image` (common/docx.py L285-303), from `ImageBlock.make_docx` (image/ImageBlock.py L84-98). -/
def floatImage (box : Rect) (w h : ℤ) : Pic := ⟨some (pt box.x0, pt box.y0), pt (box.x1 - box.x0), scaled w h (pt (box.x1 - box.x0))⟩

/-- `row.height` of the rows of a table block (table/TableStructure.py L270, written as exact height by `Row.make_docx`, table/Row.py L65-72): the height of the first cell
of the row before merging. Rows without a box are dropped (see `Table.tableBlock`). -/
def rowHeights (h v : Table.Dict Table.St) : List ℚ :=
  ((List.range ((Table.keys h).length - 1)).filter fun i =>
    (Table.rowBox ((Table.grid (Table.keys v) (Table.keys h) (Table.statusRows h v) (Table.statusCols h v)).getD i [])).truthy).map fun i =>
      (Table.keys h).getD (i + 1) 0 - (Table.keys h).getD i 0

end Write
