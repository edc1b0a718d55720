import Verif.Layout
/-! # Which tables are found on a page without vector graphics

The parameter `Lay.Detect` of `Layout.lean` made concrete for layouts without shapes: `page_layout_table` (table/TablesConstructor.py L42-97, model
`Columns.lean`), `lattice_tables` (L100-161: returns at once without shapes), `stream_tables` (L164-262, model `Stream.lean` and `Border.lean`). -/

namespace Detect
open Geom Py Lay

variable {α : Type}

/-- Settings: those of `Lay.Cfg` (`float_layout_tolerance`, `line_separate_threshold`, set iteration order), `min_border_clearance`, `max_border_width`, and the
iteration order of the set of ranges in `_add_full_dummy_borders`. -/
structure Cfg where
  lay : Lay.Cfg
  clear : ℚ
  maxW : ℚ
  order : List (ℚ × ℚ) → List (ℚ × ℚ)

/-- Rows of a table block. -/
abbrev Rows := List (List Table.CellOut)

/-- A table block as `assign_to_tables` sees it: its box, and the boxes of its cells, merged-away and empty ones left out (`if not cell: continue`,
table/TableBlock.py L111). -/
def tab (g : Rows) : Tab := ⟨Columns.tableBox g, (g.flatten.filterMap fun c => c.map Prod.snd).filter Rect.truthy, false⟩

/-- A table block without box is not a table (`if table`, TablesConstructor.py L91; `Blocks.append`). -/
def tabs (gs : List Rows) : List Tab := (gs.map tab).filter fun t => t.box.truthy

/-- `page_layout_table` (L42-97) for a layout without shapes: the elements are the lines of all blocks (L62-64). -/
def pageStage (box : Rect) (bs : List (Blk α)) : Except Err (List Tab) :=
  match Columns.pageTable box ((bs.flatMap Blk.lines).map fun l => l.bbox) with
  | .error e => .error e
  | .ok g => .ok (tabs [g])

/-- A block as `collect_stream_lines` sees it (page/Blocks.py L250-254): the lines of a text block; for a table one line with its box. -/
def sblock (c : Lay.Cfg) (b : Blk α) : Stream.SBlock :=
  match b with
  | .text _ ls => ⟨b.el, ls.map Lns.Ln.el, Stream.isFlow c.iter c.tol c.sep ls⟩
  | .table r _ => ⟨b.el, [⟨r.round, .leftRight⟩], true⟩

/-- `Stroke({...}).update_bbox(centerline)` (table/Border.py L211) for borders without explicit stroke: a line of width 0. -/
def strokeOf (t : (ℚ × ℚ × ℚ × ℚ) × ℚ × ℕ) : Table.St := Table.St.line ⟨t.1.1, t.1.2.1, t.1.2.2.1, t.1.2.2.2⟩

/-- `_stream_strokes` without explicit strokes and shadings (L265-296), sorted in reading order (L246). `Stream.borders` is defined for this depth
(theorem `C76_terminates`). -/
def streamStrokes (c : Cfg) (box : Rect) (boxes : List Rect) (ls : List El) : List Table.St :=
  match Stream.borders c.lay.iter (ls.length + 1) box boxes ls with
  | none => []
  | some st =>
    sortBy (fun s : Table.St => Coll.key s.bbox.y0 s.bbox.x0 s.bbox.x1)
      (((Border.finalize c.order [] [] st).filterMap fun b => (Border.toStroke (Border.finalize c.order [] [] st) b).map strokeOf).filter fun s => s.bbox.truthy)

/-- One candidate (L224-255): without shadings a table with one column is given up. -/
def streamTable (c : Cfg) (box : Rect) (boxes : List Rect) (ls : List El) : Except Err Rows :=
  match Table.parse c.clear c.maxW (streamStrokes c box boxes ls) with
  | .error e => .error e
  | .ok g => .ok (if 1 < (g.headD []).length then g else [])

/-- `stream_tables` (L164-259) for a layout without shapes. -/
def streamStage (c : Cfg) (box : Rect) (bs : List (Blk α)) : Except Err (List Tab) :=
  match (Stream.collect [] (bs.map (sblock c.lay))).mapM (streamTable c box (bs.map Blk.bbox)) with
  | .error e => .error e
  | .ok gs => .ok (tabs gs)

/-- The three stages. The working box of a cell is its box: borders without explicit strokes have width 0. -/
def text (c : Cfg) : Lay.Detect α := fun _ box s bs =>
  match s with
  | 0 => pageStage box bs
  | 1 => .ok []
  | _ => streamStage c box bs

end Detect
