import Verif.Assign
import Verif.Lines
import Verif.Stream
import Verif.Columns
/-! # Nested layout: `Layout.parse`

page/Layout.py `parse` (L67-85), page/Blocks.py `assign_to_tables` (L205-226), `_assign_block_to_tables` (L569-608), `split_back` (L461-487),
table/Cell.py `_assign_block` (L108-129), table/TableBlock.py `assign_blocks`, `parse` (L104-137), text/Line.py, text/TextSpan.py and
image/ImageSpan.py `intersects`. A layout is a list of blocks; a table block holds the layouts of its visible cells. Which tables are found
at each stage (`page_layout_table`, `lattice_tables`, `stream_tables`) is a parameter: every theorem holds for whatever these find. Text
formats and spacing, which change neither characters nor boxes of lines, are not part of this model. -/

namespace Lay
open Geom Py Assign

variable {α : Type}

/-- A line: box, direction, original parent, spans (each with its box). -/
abbrev Ln (α : Type) := Lns.Ln (Span α)

instance : HasBox (Ln α) := ⟨Lns.Ln.bbox⟩

/-- A text/image block with its lines, or a table block with its visible cells: box and layout of each. -/
inductive Blk (α : Type) where
  | text (bbox : Rect) (lines : List (Ln α))
  | table (bbox : Rect) (cells : List (Rect × List (Blk α)))

def Blk.bbox : Blk α → Rect
  | .text b _ => b
  | .table b _ => b

/-- `block.lines`; a table has none. -/
def Blk.lines : Blk α → List (Ln α)
  | .text _ ls => ls
  | .table _ _ => []

/-- `is_text_image_block()`. -/
def Blk.isText : Blk α → Bool
  | .text _ _ => true
  | .table _ _ => false

/-- A table found: its box and the boxes of its visible cells. `sort`: shapes are given to the table too, in which case the blocks of its cells are put in reading
order (`Cell.assign_shapes`, table/Cell.py L132-141, calls `Shapes.detect_initial_categories`, shape/Shapes.py L174-176). -/
structure Tab where
  box : Rect
  cells : List Rect
  sort : Bool := false
  deriving DecidableEq

/-! ## Blocks -/

/-- `TextBlock.text_direction` (text/TextBlock.py L62-74); left to right for a table (common/share.py). -/
def Blk.dir : Blk α → Dir
  | .text _ ls =>
    let ds := (ls.map fun l => l.dir).dedup
    if Dir.ignore ∈ ds then .ignore else if ds.length = 1 then ds.headD .leftRight else .leftRight
  | .table _ _ => .leftRight

def Blk.el (b : Blk α) : El := ⟨b.bbox, b.dir⟩

/-- `Collection.sort_in_reading_order` (common/Collection.py L221-229). -/
def sortBlocks (bs : List (Blk α)) : List (Blk α) :=
  if Coll.textDirection (bs.map Blk.el) = .leftRight then sortBy (fun l => Coll.key l.bbox.y0 l.bbox.x0 l.bbox.x1) bs
  else sortBy (fun l => Coll.key l.bbox.x0 l.bbox.y1 l.bbox.y0) bs

/-- `Blocks.append`, `Blocks.reset`: a block without box is not added (common/Collection.py L161-164). -/
def real (bs : List (Blk α)) : List (Blk α) := bs.filter fun b => b.bbox.truthy

/-- `TextBlock()` followed by `add(lines)` or `lines.reset(lines)`: lines without box are skipped, lines without original parent get the
`id` of the new block (text/Lines.py L27-37). -/
def mkText (id : ℕ) (ls : List (Ln α)) : Blk α :=
  let ls := (ls.filter fun l => l.bbox.truthy).map fun l => { l with pid := l.pid.or (some id) }
  .text (ls.foldl (fun b l => Coll.unionBbox b l.bbox) Rect.zero) ls

/-! ## Cutting a line at a cell -/

/-- `TextSpan.intersects` (text/TextSpan.py L342-366), `ImageSpan.intersects` (image/ImageSpan.py L15-30). -/
def cutSpan (rect : Rect) : Span α → Span α
  | .text b cs =>
    if rect.contains b then .text b cs
    else if !rect.intersects b then .text Rect.zero []
    else
      let cs' := cs.filter fun ch => mainIn (1 / 2) ch.1 rect
      .text (cs'.foldl (fun r ch => Coll.unionBbox r ch.1) Rect.zero) cs'
  | .image b a => if mainIn (3 / 4) b rect then .image b a else .text Rect.zero []

/-- `Line.intersects` (text/Line.py L154-175). -/
def cutLine (rect : Rect) (l : Ln α) : Ln α :=
  if rect.contains l.bbox then l
  else Lns.Ln.add ⟨Rect.zero, l.dir, none, []⟩ (l.spans.map fun s => ((cutSpan rect s.2).bbox, cutSpan rect s.2))

/-- `Cell._assign_block` (table/Cell.py L108-129): the blocks added to the layout of the cell (none or one). `constants.FACTOR_ALMOST = 0.95`. -/
def assignCell (id : ℕ) (cell : Rect) (b : Blk α) : List (Blk α) :=
  if El.contains ⟨cell, .leftRight⟩ ⟨b.bbox, .leftRight⟩ (19 / 20) then real [b]
  else if !(cell.inter b.bbox).truthy then []
  else match b with
    | .table _ _ => []
    | .text _ ls => real [mkText id (ls.map (cutLine cell))]

/-! ## Distribution to tables -/

/-- `_assign_block_to_tables` (page/Blocks.py L569-608): the blocks given to each table, and the blocks left. All lines have a parent, so
the `id` of the new blocks is never used. -/
def assignBlock (boxes : List Rect) (b : Blk α) : Except Err (List (List (Blk α)) × List (Blk α)) :=
  match b with
  | .table r cs =>
    match assignWhole r boxes with
    | some i => .ok (boxes.mapIdx fun j _ => if i = j then [.table r cs] else [], [])
    | none => .ok (boxes.map fun _ => [], [.table r cs])
  | .text r ls =>
    match assignText r ls boxes ls with
    | .error e => .error e
    | .ok p => .ok (List.zipWith (fun t l => if l.isEmpty then [] else if t.contains r then [.text r ls] else [mkText 0 l]) boxes p.1, [mkText 0 p.2])

/-- The blocks in the layout of one cell: `assign_blocks` (table/Cell.py L96-105) for the blocks given to the table. -/
def cellLayout (nid : ℕ → ℕ) (cell : Rect) (bs : List (Blk α)) : List (Blk α) := bs.zipIdx.flatMap fun b => assignCell (nid b.2) cell b.1

/-- `blocks.sort_in_reading_order()` if shapes come with the blocks (shape/Shapes.py L176). -/
def arrange (sort : Bool) (bs : List (Blk α)) : List (Blk α) := if sort then sortBlocks bs else bs

/-- A table found, filled with the blocks given to it (`TableBlock.assign_blocks`, table/TableBlock.py L104-113). -/
def fillTable (nid : ℕ → ℕ → ℕ) (t : Tab) (bs : List (Blk α)) : Blk α :=
  .table t.box (t.cells.zipIdx.map fun c => (c.1, arrange t.sort (cellLayout (nid c.2) c.1 bs)))

/-- `Blocks.assign_to_tables` (page/Blocks.py L205-226). -/
def assignTables (nid : ℕ → ℕ → ℕ → ℕ) (ts : List Tab) (bs : List (Blk α)) : Except Err (List (Blk α)) :=
  if ts.isEmpty then .ok bs
  else
    match bs.mapM (assignBlock (ts.map Tab.box)) with
    | .error e => .error e
    | .ok rs =>
      .ok (sortBlocks (real ((rs.flatMap Prod.snd) ++
        ts.zipIdx.map fun t => fillTable (nid t.2) t.1 (rs.flatMap fun r => r.1.getD t.2 []))))

/-! ## Splitting back -/

/-- Set iteration order, `float_layout_tolerance`, `line_separate_threshold`. -/
structure Cfg where
  iter : List ℕ → List ℕ
  tol : ℚ
  sep : ℚ

/-- A text block in flow layout (page/Blocks.py L476). -/
def flow (c : Cfg) (b : Blk α) : Bool := b.isText && Stream.isFlow c.iter c.tol c.sep b.lines

/-- `Blocks.split_back` (page/Blocks.py L461-487). -/
def splitBack (c : Cfg) (bs : List (Blk α)) : Except Err (List (Blk α)) :=
  match Lns.splitBack c.iter ((bs.filter (flow c)).flatMap Blk.lines) with
  | .error e => .error e
  | .ok gs => .ok (sortBlocks (real (bs.filter (fun b => !flow c b) ++ gs.map (mkText 0))))

/-! ## The recursion -/

/-- What the stages find: position of the layout (indexes of blocks and cells from the page down), its box, the stage (0: two columns,
1: lattice, 2: stream), the blocks at that moment. -/
abbrev Detect (α : Type) := List ℕ → Rect → ℕ → List (Blk α) → Except Err (List Tab)

/-- `id()` of the block made for a position (`path`, stage, table, cell, block). -/
abbrev Ids := List ℕ → ℕ → ℕ → ℕ → ℕ → ℕ

/-- The stages of one layout, each followed by `assign_to_tables` (page/Layout.py L113-137). -/
def stages (D : Detect α) (nid : Ids) (path : List ℕ) (box : Rect) : List ℕ → List (Blk α) → Except Err (List (Blk α))
  | [], bs => .ok bs
  | s :: ss, bs =>
    match D path box s bs with
    | .error e => .error e
    | .ok ts =>
      match assignTables (nid path s) ts bs with
      | .error e => .error e
      | .ok bs => stages D nid path box ss bs

/-- A level: the stages, then `split_back` at the end of `stream_tables` (table/TablesConstructor.py L255). -/
def level (c : Cfg) (D : Detect α) (nid : Ids) (path : List ℕ) (box : Rect) (ss : List ℕ) (bs : List (Blk α)) : Except Err (List (Blk α)) :=
  match stages D nid path box ss bs with
  | .error e => .error e
  | .ok bs => splitBack c bs

/-- `TableBlock.parse` (table/TableBlock.py L126-137): all cells of a table block. `sub` parses a layout. -/
def parseCells (sub : ℕ → Rect → List (Blk α) → Except Err (List (Blk α))) : ℕ → List (Rect × List (Blk α)) → Except Err (List (Rect × List (Blk α)))
  | _, [] => .ok []
  | i, c :: cs =>
    match sub i c.1 c.2 with
    | .error e => .error e
    | .ok bs =>
      match parseCells sub (i + 1) cs with
      | .error e => .error e
      | .ok cs => .ok ((c.1, bs) :: cs)

/-- The loop over the table blocks (page/Layout.py L83-85). -/
def parseTables (sub : ℕ → ℕ → Rect → List (Blk α) → Except Err (List (Blk α))) : ℕ → List (Blk α) → Except Err (List (Blk α))
  | _, [] => .ok []
  | i, .text b ls :: bs =>
    match parseTables sub (i + 1) bs with
    | .error e => .error e
    | .ok bs => .ok (.text b ls :: bs)
  | i, .table b cs :: bs =>
    match parseCells (sub i) 0 cs with
    | .error e => .error e
    | .ok cs =>
      match parseTables sub (i + 1) bs with
      | .error e => .error e
      | .ok bs => .ok (.table b cs :: bs)

/-- `Layout.parse` (page/Layout.py L67-85) with at most `depth` nested layouts (Python's recursion limit). On a page the stages are
0, 1, 2; in a cell 1, 2 (L110). Simplification: the box of a cell layout is the box of the cell; the border widths, by which it is reduced, are left to
`D`. -/
def parse (c : Cfg) (D : Detect α) (nid : Ids) : ℕ → List ℕ → Rect → List ℕ → List (Blk α) → Except Err (List (Blk α))
  | 0, _, _, _, _ => .error (.exn "RecursionError")
  | depth + 1, path, box, ss, bs =>
    match level c D nid path box ss bs with
    | .error e => .error e
    | .ok bs => parseTables (fun i j r sub => parse c D nid depth (path ++ [i, j]) r [1, 2] sub) 0 bs

/-- A page. -/
def parsePage (c : Cfg) (D : Detect α) (nid : Ids) (depth : ℕ) (page : Rect) (bs : List (Blk α)) : Except Err (List (Blk α)) :=
  parse c D nid depth [] page [0, 1, 2] bs

/-! ## Content -/

mutual
/-- All text blocks (box and lines) of a block, at every nesting, in order. -/
def Blk.texts : Blk α → List (Rect × List (Ln α))
  | .text b ls => [(b, ls)]
  | .table _ cs => cellsTexts cs
/-- All text blocks in cells. -/
def cellsTexts : List (Rect × List (Blk α)) → List (Rect × List (Ln α))
  | [] => []
  | (_, bs) :: cs => texts bs ++ cellsTexts cs
/-- All text blocks of a layout, at every nesting. -/
def texts : List (Blk α) → List (Rect × List (Ln α))
  | [] => []
  | b :: bs => b.texts ++ texts bs
end

/-- Characters and images of a line, in order. -/
def lineItems (l : Ln α) : List α := l.spans.flatMap fun s => s.2.items

/-- All lines of a layout, at every nesting. -/
def allLines (bs : List (Blk α)) : List (Ln α) := (texts bs).flatMap Prod.snd

/-- All characters and images of a layout, at every nesting. -/
def items (bs : List (Blk α)) : List α := (allLines bs).flatMap lineItems

end Lay
