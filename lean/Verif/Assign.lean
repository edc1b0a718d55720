import Verif.Collection
/-! # Model of the distribution of page content to tables and cells

`page/Blocks.py` (`_assign_block_to_tables`), `shape/Shapes.py` (`assign_to_tables`), `table/Cell.py` (`_assign_block`), `text/Line.py` and
`text/TextSpan.py`, `image/ImageSpan.py` (`intersects`). Characters and images carry a tag of type `α` (their identity). -/

namespace Assign
open Py Geom

variable {α : Type}

/-- A text span with its characters, or an image span. -/
inductive Span (α : Type) where
  | text (bbox : Rect) (chars : List (Rect × α))
  | image (bbox : Rect) (a : α)
  deriving DecidableEq

/-- Characters or image of a span. -/
def Span.items : Span α → List α
  | .text _ cs => cs.map Prod.snd
  | .image _ a => [a]

def Span.bbox : Span α → Rect
  | .text b _ => b
  | .image b _ => b

/-- A line. -/
structure Line (α : Type) where
  bbox : Rect
  spans : List (Span α)
  deriving DecidableEq

def Line.items (l : Line α) : List α := l.spans.flatMap Span.items

/-- A text/image block, or a table. -/
inductive Block (α : Type) where
  | text (bbox : Rect) (lines : List (Line α))
  | table (bbox : Rect) (a : α)

def Block.bbox : Block α → Rect
  | .text b _ => b
  | .table b _ => b

def Block.items : Block α → List α
  | .text _ ls => ls.flatMap Line.items
  | .table _ a => [a]

/-! ## Page level -/

/-- What is distributed to tables: anything with a box. -/
class HasBox (β : Type) where
  box : β → Rect
export HasBox (box)

instance : HasBox (Line α) := ⟨Line.bbox⟩

/-- `Collection.split_with_intersection` on lines (common/Collection.py L253-273); `ZeroDivisionError` for a line without area. -/
def splitLines {β : Type} [HasBox β] (t : Rect) (threshold : ℚ) : List β → Except Err (List β × List β)
  | [] => .ok ([], [])
  | e :: es =>
    if (box e).area = 0 then .error .zeroDiv
    else match splitLines t threshold es with
      | .error x => .error x
      | .ok r => if threshold ≤ Coll.round2 (((box e).inter t).area / (box e).area) then .ok (e :: r.1, r.2) else .ok (r.1, e :: r.2)

/-- The loop over the tables of `_assign_block_to_tables` (page/Blocks.py L576-599) for a text block with box `b` and lines `all`; `lines`
are those not yet assigned. Result: the lines added to each table, and the lines left on the page (L601-608).
`constants.FACTOR_MOST = 0.9`. -/
def assignText {β : Type} [HasBox β] (b : Rect) (all : List β) : List Rect → List β → Except Err (List (List β) × List β)
  | [], lines => .ok ([], lines)
  | t :: ts, lines =>
    if t.contains b then .ok (all :: ts.map fun _ => [], [])
    else if !t.intersects b then (assignText b all ts lines).map fun r => ([] :: r.1, r.2)
    else match splitLines t (9 / 10) lines with
      | .error x => .error x
      | .ok (inT, out) => if out.isEmpty then .ok (inT :: ts.map fun _ => [], [])
        else (assignText b all ts out).map fun r => (inT :: r.1, r.2)

/-- The same loop for a table block, or for a shape (`Shapes.assign_to_tables`, shape/Shapes.py L221-239): position of the table taking
it, or `none` if it stays. -/
def assignWhole (b : Rect) (ts : List Rect) : Option ℕ := ts.findIdx? fun t => t.contains b

/-! ## Cell level -/

/-- `get_main_bbox` as a condition (common/Element.py L163-185). -/
def mainIn (th : ℚ) (b rect : Rect) : Bool := (El.mainBbox b rect th).any Rect.truthy

/-- What a span contributes to a cell (`TextSpan.intersects`, text/TextSpan.py L342-366; `ImageSpan.intersects`, image/ImageSpan.py
L16-30). `constants.FACTOR_A_HALF = 0.5`, `FACTOR_MAJOR = 0.75`. -/
def spanIn (rect : Rect) : Span α → List α
  | .text b cs =>
    if rect.contains b then cs.map Prod.snd
    else if !rect.intersects b then []
    else (cs.filter fun c => mainIn (1 / 2) c.1 rect).map Prod.snd
  | .image b a => if mainIn (3 / 4) b rect then [a] else []

/-- `Line.intersects` (text/Line.py L154-175). Empty spans and lines, which are dropped, contribute nothing. -/
def lineIn (rect : Rect) (l : Line α) : List α := if rect.contains l.bbox then l.items else l.spans.flatMap (spanIn rect)

/-- `Cell._assign_block` (table/Cell.py L108-129): the content of the block put into the cell. `constants.FACTOR_ALMOST = 0.95`. -/
def cellIn (cell : Rect) (blk : Block α) : List α :=
  if El.contains ⟨cell, .leftRight⟩ ⟨blk.bbox, .leftRight⟩ (19 / 20) then blk.items
  else if !(cell.inter blk.bbox).truthy then []
  else match blk with
    | .table _ _ => []
    | .text _ ls => ls.flatMap (lineIn cell)

/-- `TableBlock.assign_blocks` (table/TableBlock.py L104-113) for one block: content of each cell (the visible ones). -/
def cellsIn (cells : List Rect) (blk : Block α) : List (List α) := cells.map fun c => cellIn c blk

/-- `Cell.assign_shapes` (table/Cell.py L132-141): the cells that get a shape. -/
def shapeCells (cells : List Rect) (s : Rect) : List Rect := cells.filter fun c => (c.inter s).truthy

end Assign
