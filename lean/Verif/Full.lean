import Verif.Detect
import Verif.Lattice
import Verif.Shapes
/-! # The layout of a page, with its shapes

`Layout.parse` (page/Layout.py L67-85) without any parameter for the tables: `page_layout_table`, `lattice_tables` and `stream_tables` (table/TablesConstructor.py L42-261)
working on the blocks and on the shapes (strokes, fills, hyperlinks) of a layout, and both being distributed to the cells of the tables found
(`Blocks.assign_to_tables`, page/Blocks.py L205-226, `Shapes.assign_to_tables`, shape/Shapes.py L209-247). Theorem `fl_refines` (Props/Full.lean): every run is a run of
`Lay.parse` for some choice of the tables.

A shape is a value. Python marks the shape object when it turns out to be a border, a shading or a text style; here the marked shapes are listed (`Types`), so two
equal shapes are marked together. `Shapes.clean_up` (L134-147) merges equal shapes, so a page has none. -/

namespace Full
open Geom Py

variable {α : Type}

/-! ## Shapes -/

/-- `Stroke`, `Fill`, `Hyperlink` (shape/Shape.py). -/
inductive Sh where
  | stroke (s : Table.St)
  | fill (bbox : Rect) (color : ℕ)
  | link (bbox : Rect)
  deriving DecidableEq

def Sh.bbox : Sh → Rect
  | .stroke s => s.bbox
  | .fill b _ => b
  | .link b => b

/-- The shape as the classification sees it. -/
def Sh.shp : Sh → Shapes.Shp
  | .stroke s => ⟨.stroke, s.color, s.bbox, s.width, 0⟩
  | .fill b c => ⟨.fill, c, b, 0, 0⟩
  | .link b => ⟨.link, 0, b, 0, 0⟩

/-- `shape.type` of all shapes: `done` are those with type BORDER or SHADING, `styled` those with a text style. -/
structure Types where
  done : List Sh
  styled : List Sh
  deriving DecidableEq

/-- `shape.is_determined` (shape/Shape.py L72) for strokes and fills. -/
def Types.determined (ty : Types) (s : Sh) : Bool := decide (s ∈ ty.done) || decide (s ∈ ty.styled)

/-- Add BORDER/SHADING marks. -/
def Types.mark (ty : Types) (l : List Sh) : Types := { ty with done := ty.done ++ l }

/-- `Shapes` of a layout: the shapes, `table_strokes`, `table_fillings` (shape/Shapes.py L15-27). The latter two do not change when shapes leave. -/
structure Sub where
  shapes : List Sh
  strokes : List Table.St
  fills : List (Rect × ℕ)
  deriving DecidableEq

def Sub.empty : Sub := ⟨[], [], []⟩

/-- `rgb_value((1,1,1))`. -/
def white : ℕ := 16777215

/-! ## Blocks -/

/-- Box, border widths (top, right, bottom, left) and `bg_color` of a visible cell (table/TableStructure.py L281-297). -/
structure CellInfo where
  box : Rect
  top : ℚ
  right : ℚ
  bottom : ℚ
  left : ℚ
  bg : Option ℕ
  deriving DecidableEq

/-- `Cell.working_bbox` (table/Cell.py L37-41), the box of the cell's layout (page/Layout.py `bbox`). -/
def CellInfo.working (c : CellInfo) : Rect := ⟨c.box.x0 + c.left / 2, c.box.y0 + c.top / 2, c.box.x1 - c.right / 2, c.box.y1 - c.bottom / 2⟩

/-- A cell: style, and the shapes of its layout. -/
structure Cell where
  info : CellInfo
  sub : Sub
  deriving DecidableEq

/-- A text/image block, or a table block: its rows (at each position, whether there is a cell), the cells row by row and the blocks of their layouts. -/
inductive Blk (α : Type) where
  | text (bbox : Rect) (lines : List (Lay.Ln α))
  | table (bbox : Rect) (rows : List (List Bool)) (cells : List (Cell × List (Blk α)))

def Blk.bbox : Blk α → Rect
  | .text b _ => b
  | .table b _ _ => b

def Blk.lines : Blk α → List (Lay.Ln α)
  | .text _ ls => ls
  | .table _ _ _ => []

def Blk.isText : Blk α → Bool
  | .text _ _ => true
  | .table _ _ _ => false

/-- Text direction, as `Lay.Blk.dir`. -/
def Blk.el : Blk α → El
  | .text b ls => (Lay.Blk.text b ls).el
  | .table b _ _ => ⟨b, .leftRight⟩

/-- As `Lay.sortBlocks` (common/Collection.py L221-229). -/
def sortBlocks (bs : List (Blk α)) : List (Blk α) :=
  if Coll.textDirection (bs.map Blk.el) = .leftRight then sortBy (fun l => Coll.key l.bbox.y0 l.bbox.x0 l.bbox.x1) bs
  else sortBy (fun l => Coll.key l.bbox.x0 l.bbox.y1 l.bbox.y0) bs

/-- As `Lay.real` (common/Collection.py L161-164). -/
def real (bs : List (Blk α)) : List (Blk α) := bs.filter fun b => b.bbox.truthy

/-- As `Lay.mkText`. -/
def mkText (id : ℕ) (ls : List (Lay.Ln α)) : Blk α := .text (Lay.mkText id ls).bbox (Lay.mkText id ls).lines

/-- `Cell._assign_block` (table/Cell.py L108-129), as `Lay.assignCell`. -/
def assignCell (id : ℕ) (cell : Rect) (b : Blk α) : List (Blk α) :=
  if El.contains ⟨cell, .leftRight⟩ ⟨b.bbox, .leftRight⟩ (19 / 20) then real [b]
  else if !(cell.inter b.bbox).truthy then []
  else match b with
    | .table _ _ _ => []
    | .text _ ls => real [mkText id (ls.map (Lay.cutLine cell))]

/-- `_assign_block_to_tables` (page/Blocks.py L569-608), as `Lay.assignBlock`. -/
def assignBlock (boxes : List Rect) (b : Blk α) : Except Err (List (List (Blk α)) × List (Blk α)) :=
  match b with
  | .table r g cs =>
    match Assign.assignWhole r boxes with
    | some i => .ok (boxes.mapIdx fun j _ => if i = j then [.table r g cs] else [], [])
    | none => .ok (boxes.map fun _ => [], [.table r g cs])
  | .text r ls =>
    match Assign.assignText r ls boxes ls with
    | .error e => .error e
    | .ok p => .ok (List.zipWith (fun t l => if l.isEmpty then [] else if t.contains r then [.text r ls] else [mkText 0 l]) boxes p.1, [mkText 0 p.2])

/-- `Cell.assign_blocks` (table/Cell.py L96-105). -/
def cellLayout (nid : ℕ → ℕ) (cell : Rect) (bs : List (Blk α)) : List (Blk α) := bs.zipIdx.flatMap fun b => assignCell (nid b.2) cell b.1

/-! ## Categories of shapes -/

/-- Text blocks as the classification sees them (`blocks.text_blocks`, page/Blocks.py L81-84). -/
def textBlocks (bs : List (Blk α)) : List Shapes.TB :=
  (bs.filter Blk.isText).map fun b => ⟨b.bbox, b.lines.map fun l => l.bbox⟩

/-- Potential table border, as in `Shapes.categories` (shape/Shapes.py L201-203). -/
def borderOf (tbs : List Shapes.TB) : Sh → Option Table.St
  | .stroke s => if Shapes.determined (Sh.stroke s).shp tbs then none else some s
  | _ => none

/-- Potential shading (shape/Shapes.py L190-191). -/
def shadingOf (tbs : List Shapes.TB) : Sh → Option (Rect × ℕ)
  | .fill b c => if Shapes.determined (Sh.fill b c).shp tbs then some (b, c) else none
  | _ => none

/-- `Shapes` of a layout with blocks `bs` (in reading order) after `detect_initial_categories` (shape/Shapes.py L159-206). Shapes without box are never
part of a collection. -/
def mkSub (bs : List (Blk α)) (shapes : List Sh) : Sub :=
  ⟨shapes, shapes.filterMap (borderOf (textBlocks bs)), shapes.filterMap (shadingOf (textBlocks bs))⟩

/-! ## Tables found -/

/-- A table found: box, rows, visible cells. -/
structure Found where
  box : Rect
  rows : List (List Bool)
  cells : List CellInfo
  deriving DecidableEq

/-- Rows of a table block; `none` is a merged-away cell. -/
abbrev Rows := List (List (Option CellInfo))

/-- The boxes only. -/
def Rows.boxes (g : Rows) : List (List Table.CellOut) := g.map fun r => r.map fun c => c.map fun i => ((1, 1), i.box)

/-- A position of a row holds a cell: `if not cell: continue` (table/TableBlock.py L133). -/
def isCell (c : Option CellInfo) : Bool := c.elim false fun i => i.box.truthy

/-- As `Detect.tab`. -/
def found (g : Rows) : Found := ⟨Columns.tableBox g.boxes, g.map fun r => r.map isCell, (g.flatten.filterMap id).filter fun c => c.box.truthy⟩

/-- `self.h_strokes[k]`. -/
def strokesAt (d : Table.Dict Table.St) (k : ℚ) : List Table.St := ((d.find? fun e => decide (e.1 = k)).map Prod.snd).getD []

/-- Width of `_get_border_stroke` (table/TableStructure.py L88-126); 0 for the empty stroke. -/
def widthOf (vertical : Bool) (x0 x1 : ℚ) (l : List Table.St) : ℚ := ((Table.borderStroke vertical x0 x1 l).map Table.St.width).getD 0

/-- The fill chosen as shading (table/TableStructure.py L61-85). -/
def pickFill (box : Rect) (wt wr wb wl : ℚ) (fills : List (Rect × ℕ)) : Option (Rect × ℕ) :=
  fills.find? fun f => (Table.shading box wt wr wb wl [f.1]).isSome

/-- A visible cell with its (unrounded) box `r` (`parse_borders`, `parse_shading`, table/TableStructure.py L43-85; `to_table_block`, L281-297): style, and the fill used. -/
def cellStyle (h v : Table.Dict Table.St) (fills : List (Rect × ℕ)) (r : Rect) : CellInfo × Option (Rect × ℕ) :=
  let wt := widthOf false r.x0 r.x1 (strokesAt h r.y0)
  let wb := widthOf false r.x0 r.x1 (strokesAt h r.y1)
  let wl := widthOf true r.y0 r.y1 (strokesAt v r.x0)
  let wr := widthOf true r.y0 r.y1 (strokesAt v r.x1)
  let f := pickFill r wt wr wb wl fills
  (⟨r.round, wt, wr, wb, wl, f.map Prod.snd⟩, f)

/-- The (unrounded) box of cell `(i, j)`, `none` if merged away; see `Table.cellAt`. -/
def boxAt (xs ys : List ℚ) (R C : List (List Bool)) (i j : ℕ) : Option Rect :=
  let m := Table.merged R C i j
  if Table.isMerged m then none else some ⟨xs.getD j 0, ys.getD i 0, xs.getD (j + m.2) 0, ys.getD (i + m.1) 0⟩

/-- All cells of the structure with their styles. -/
def styles (h v : Table.Dict Table.St) (fills : List (Rect × ℕ)) : List (List (Option (CellInfo × Option (Rect × ℕ)))) :=
  (List.range ((Table.keys h).length - 1)).map fun i => (List.range ((Table.keys v).length - 1)).map fun j =>
    (boxAt (Table.keys v) (Table.keys h) (Table.statusRows h v) (Table.statusCols h v) i j).map (cellStyle h v fills)

/-- Box of a row. -/
def rowBox (row : List (Option CellInfo)) : Rect := row.foldl (fun b c => Coll.unionBbox b ((c.map CellInfo.box).getD Rect.zero)) Rect.zero

/-- `TableStructure(strokes, settings).parse(fills).to_table_block()` (table/TableStructure.py L241-308): the rows, the strokes in the structure, and the fills used. As
`Table.parse`, with styles. -/
def structure_ (c w : ℚ) (strokes : List Table.St) (fills : List (Rect × ℕ)) : Except Err (Rows × List Table.St × List (Rect × ℕ)) :=
  match Table.groupStrokes c w strokes with
  | none => .ok ([], [], [])
  | some (h, v) =>
    if (Table.keys h).length < 2 then .ok ([], [], [])
    else if (Table.keys v).length < 2 then .error .index
    else .ok (((styles h v fills).map fun r => r.map fun c => c.map Prod.fst).filter (fun r => (rowBox r).truthy),
      h.flatMap Prod.snd ++ v.flatMap Prod.snd, (styles h v fills).flatten.filterMap fun c => c.bind Prod.snd)

/-! ## The three stages -/

/-- Settings: those of `Detect.Cfg`, and `connected_border_tolerance`. -/
structure Cfg where
  base : Detect.Cfg
  conn : ℚ

/-- `page_layout_table` (table/TablesConstructor.py L42-97). The dummy strokes have width 0, so the cells have no borders. -/
def pageStage (box : Rect) (sub : Sub) (bs : List (Blk α)) : Except Err (List Found) :=
  match Columns.pageTable box (((bs.flatMap Blk.lines).map fun l => l.bbox) ++ sub.shapes.map Sh.bbox) with
  | .error e => .error e
  | .ok g => .ok ([found (g.map fun r => r.map fun c => c.map fun i => ⟨i.2, 0, 0, 0, 0, none⟩)].filter fun t => t.box.truthy)

/-- The loop of `lattice_tables` (L149-158), threading the types (`_finalize_strokes_fills`, table/TableStructure.py L311-324). -/
def latticeLoop (c : Cfg) (fills : List (Rect × ℕ)) : Types → List (List Table.St) → Except Err (List Found × Types)
  | ty, [] => .ok ([], ty)
  | ty, g :: gs =>
    match structure_ c.base.clear c.base.maxW g (fills.filter fun f => (Lattice.box g).contains f.1) with
    | .error e => .error e
    | .ok t =>
      if (found t.1).box.truthy then
        match latticeLoop c fills (ty.mark (t.2.1.map Sh.stroke ++ t.2.2.map fun f => Sh.fill f.1 f.2)) gs with
        | .error e => .error e
        | .ok r => .ok (found t.1 :: r.1, r.2)
      else latticeLoop c fills ty gs

/-- `lattice_tables` (L100-161). -/
def latticeStage (c : Cfg) (ty : Types) (sub : Sub) : Except Err (List Found × Types) :=
  if sub.shapes.isEmpty then .ok ([], ty)
  else latticeLoop c sub.fills ty (Lattice.removeOverlap c.base.lay.iter Lattice.box (Lattice.strokeGroups c.base.lay.iter c.conn sub.strokes))

/-- A stroke as `Border.finalize_by_stroke` sees it (table/Border.py L165-203). -/
def lineOf (ty : Types) (s : Table.St) : Border.Line :=
  if s.horizontal then ⟨true, s.x0, s.x1, s.y0, s.width, s.color, ty.determined (.stroke s)⟩
  else ⟨false, s.y0, s.y1, s.x0, s.width, s.color, ty.determined (.stroke s)⟩

/-- Does the stroke finalize the border at position `i` (table/Border.py L184-197)? -/
def finalizes (st : Border.State) (i : ℕ) (s : Border.Line) : Bool :=
  let b := st.getD i Border.dummy
  b.isValid s.value && !(decide ((st.getD b.lb Border.dummy).hi < s.low ∧ s.up < (st.getD b.ub Border.dummy).lo)) && b.value.isNone

/-- One stroke against all borders (table/Border.py L297-307): does it finalize any? -/
def finalizesAny (s : Border.Line) : List ℕ → Border.State → Bool
  | [], _ => false
  | i :: is, st =>
    if s.horizontal ≠ (st.getD i Border.dummy).horizontal then finalizesAny s is st
    else finalizes st i s || finalizesAny s is (Border.byStroke st i s)

/-- The strokes that become borders in `_finalize_by_strokes` (table/Border.py L297-307). -/
def borderMarks (ty : Types) : Border.State → List Table.St → List Table.St
  | _, [] => []
  | st, s :: l =>
    (if !(lineOf ty s).determined && finalizesAny (lineOf ty s) (List.range st.length) st then [s] else []) ++
      borderMarks ty (Border.byStrokes st [lineOf ty s]) l

/-- `Stroke({'color', 'width'}).update_bbox(centerline)` (table/Border.py L211, shape/Shape.py L168-203): the box is widened by half the width. -/
def strokeOf (t : (ℚ × ℚ × ℚ × ℚ) × ℚ × ℕ) : Table.St :=
  ⟨t.1.1, t.1.2.1, t.1.2.2.1, t.1.2.2.2, ((⟨t.1.1, t.1.2.1, t.1.2.2.1, t.1.2.2.2⟩ : Rect).expand (t.2.1 / 2) (t.2.1 / 2)).round, t.2.1, t.2.2⟩

/-- One candidate of `stream_tables` (L217-251): the table (if any), and the marks set on the way. `split_with_intersection` with threshold 0 selects all fills. -/
def streamTable (c : Cfg) (ty : Types) (box : Rect) (sub : Sub) (boxes : List Rect) (ls : List El) : Except Err (List Found × Types) :=
  match Stream.borders c.base.lay.iter (ls.length + 1) box boxes ls with
  | none => .ok ([], ty)
  | some st =>
    let strokes := sub.strokes.filter fun s => (Stream.outerBox box boxes ls).round.contains s.bbox
    let fills := (sub.fills.filter fun f => !(ty.determined (.fill f.1 f.2) || decide (f.2 = white))).map Prod.fst
    let ty' := ty.mark ((borderMarks ty (Border.addDummies c.base.order st) strokes).map Sh.stroke)
    let st := Border.finalize c.base.order (strokes.map (lineOf ty)) fills st
    let new := sortBy (fun s : Table.St => Coll.key s.bbox.y0 s.bbox.x0 s.bbox.x1)
      ((st.filterMap fun b => (Border.toStroke st b).map strokeOf).filter fun s => s.bbox.truthy)
    match structure_ c.base.clear c.base.maxW new sub.fills with
    | .error e => .error e
    | .ok t =>
      .ok (if decide (1 < (t.1.headD []).length) || t.1.any (fun r => ((r.headD none).bind CellInfo.bg).getD 0 != 0)
           then [found t.1].filter (fun f => f.box.truthy) else [],
        if (found t.1).box.truthy then ty'.mark (t.2.2.map fun f => Sh.fill f.1 f.2) else ty')

/-- The loop of `stream_tables` (L217-251). -/
def streamLoop (c : Cfg) (box : Rect) (sub : Sub) (boxes : List Rect) : Types → List (List El) → Except Err (List Found × Types)
  | ty, [] => .ok ([], ty)
  | ty, ls :: rest =>
    match streamTable c ty box sub boxes ls with
    | .error e => .error e
    | .ok t =>
      match streamLoop c box sub boxes t.2 rest with
      | .error e => .error e
      | .ok r => .ok (t.1 ++ r.1, r.2)

/-- A block as `collect_stream_lines` sees it; as `Detect.sblock`. -/
def sblock (c : Lay.Cfg) (b : Blk α) : Stream.SBlock :=
  match b with
  | .text _ ls => ⟨b.el, ls.map Lns.Ln.el, Stream.isFlow c.iter c.tol c.sep ls⟩
  | .table r _ _ => ⟨b.el, [⟨r.round, .leftRight⟩], true⟩

/-- `stream_tables` (L164-259) up to the distribution. -/
def streamStage (c : Cfg) (ty : Types) (box : Rect) (sub : Sub) (bs : List (Blk α)) : Except Err (List Found × Types) :=
  streamLoop c box sub (bs.map Blk.bbox) ty
    (Stream.collect ((sub.fills.filter fun f => decide (f.2 ≠ white)).map fun f => ⟨f.1, ty.determined (.fill f.1 f.2)⟩) (bs.map (sblock c.base.lay)))

/-- Tables found by a stage (0: two columns, 1: lattice, 2: stream). -/
def stage (c : Cfg) (s : ℕ) (ty : Types) (box : Rect) (sub : Sub) (bs : List (Blk α)) : Except Err (List Found × Types) :=
  match s with
  | 0 => (pageStage box sub bs).map fun t => (t, ty)
  | 1 => latticeStage c ty sub
  | _ => streamStage c ty box sub bs

/-! ## Distribution -/

/-- The table a shape goes to (shape/Shapes.py L222-241): none if it is a border or shading already. -/
def tableOf (ty : Types) (boxes : List Rect) (s : Sh) : Option ℕ :=
  if s ∈ ty.done then none else boxes.findIdx? fun t => t.contains s.bbox

/-- Shapes of a cell (`Cell.assign_shapes`, table/Cell.py L132-141); the blocks are in reading order. Nothing happens if no shape was given to the table
(shape/Shapes.py L245). -/
def cellSub (shapes : List Sh) (cell : Rect) (bs : List (Blk α)) : Sub :=
  if shapes.isEmpty then Sub.empty else mkSub bs (shapes.filter fun s => (cell.inter s.bbox).truthy && s.bbox.truthy)

/-- As `Lay.arrange`. -/
def arrange (sort : Bool) (bs : List (Blk α)) : List (Blk α) := if sort then sortBlocks bs else bs

/-- A table found, filled with the blocks and shapes given to it. -/
def fillTable (nid : ℕ → ℕ → ℕ) (t : Found) (shapes : List Sh) (bs : List (Blk α)) : Blk α :=
  .table t.box t.rows (t.cells.zipIdx.map fun c =>
    (⟨c.1, cellSub shapes c.1.box (arrange (!shapes.isEmpty) (cellLayout (nid c.2) c.1.box bs))⟩, arrange (!shapes.isEmpty) (cellLayout (nid c.2) c.1.box bs)))

/-- The shapes that stay (shape/Shapes.py L240-247), in reading order. -/
def leftShapes (ty : Types) (boxes : List Rect) (shapes : List Sh) : List Sh :=
  sortBy (fun s : Sh => Coll.key s.bbox.y0 s.bbox.x0 s.bbox.x1) (shapes.filter fun s => (tableOf ty boxes s).isNone)

/-- Blocks and shapes of a layout, and the types. -/
structure State (α : Type) where
  blocks : List (Blk α)
  sub : Sub
  types : Types

/-- `Blocks.assign_to_tables` (page/Blocks.py L205-226) and `Shapes.assign_to_tables` (shape/Shapes.py L209-247). -/
def assignTables (nid : ℕ → ℕ → ℕ → ℕ) (ty : Types) (ts : List Found) (sub : Sub) (bs : List (Blk α)) : Except Err (List (Blk α) × Sub) :=
  if ts.isEmpty then .ok (bs, sub)
  else
    match bs.mapM (assignBlock (ts.map Found.box)) with
    | .error e => .error e
    | .ok rs =>
      .ok (sortBlocks (real ((rs.flatMap Prod.snd) ++
        ts.zipIdx.map fun t => fillTable (nid t.2) t.1 (sub.shapes.filter fun s => decide (tableOf ty (ts.map Found.box) s = some t.2))
          (rs.flatMap fun r => r.1.getD t.2 []))),
        { sub with shapes := leftShapes ty (ts.map Found.box) sub.shapes })

/-- All stages of a layout. -/
def stages (c : Cfg) (nid : Lay.Ids) (path : List ℕ) (box : Rect) : List ℕ → State α → Except Err (State α)
  | [], st => .ok st
  | s :: ss, st =>
    match stage c s st.types box st.sub st.blocks with
    | .error e => .error e
    | .ok t =>
      match assignTables (nid path s) t.2 t.1 st.sub st.blocks with
      | .error e => .error e
      | .ok r => stages c nid path box ss ⟨r.1, r.2, t.2⟩

/-! ## Splitting back, recursion -/

/-- As `Lay.flow`. -/
def flow (c : Lay.Cfg) (b : Blk α) : Bool := b.isText && Stream.isFlow c.iter c.tol c.sep b.lines

/-- As `Lay.splitBack` (page/Blocks.py L461-487). -/
def splitBack (c : Lay.Cfg) (bs : List (Blk α)) : Except Err (List (Blk α)) :=
  match Lns.splitBack c.iter ((bs.filter (flow c)).flatMap Blk.lines) with
  | .error e => .error e
  | .ok gs => .ok (sortBlocks (real (bs.filter (fun b => !flow c b) ++ gs.map (mkText 0))))

/-- `Layout._parse_text_format` (page/Layout.py L140-149): the shapes that turn out to style text of this layout. Here any function of position, the layout before and
after tables were taken out of it (with the types of shapes), and the blocks in the end; see `Deco.format` (Styled.lean) for the one of the code. -/
abbrev Format (α : Type) := List ℕ → State α → State α → List (Blk α) → List Sh

/-- `TableBlock.parse` (table/TableBlock.py L126-137). -/
def parseCells (sub : ℕ → Types → Cell → List (Blk α) → Except Err (List (Blk α) × Types)) :
    ℕ → Types → List (Cell × List (Blk α)) → Except Err (List (Cell × List (Blk α)) × Types)
  | _, ty, [] => .ok ([], ty)
  | i, ty, c :: cs =>
    match sub i ty c.1 c.2 with
    | .error e => .error e
    | .ok r =>
      match parseCells sub (i + 1) r.2 cs with
      | .error e => .error e
      | .ok q => .ok ((c.1, r.1) :: q.1, q.2)

/-- The loop over the table blocks (page/Layout.py L83-85). -/
def parseTables (sub : ℕ → ℕ → Types → Cell → List (Blk α) → Except Err (List (Blk α) × Types)) :
    ℕ → Types → List (Blk α) → Except Err (List (Blk α) × Types)
  | _, ty, [] => .ok ([], ty)
  | i, ty, .text b ls :: bs =>
    match parseTables sub (i + 1) ty bs with
    | .error e => .error e
    | .ok r => .ok (.text b ls :: r.1, r.2)
  | i, ty, .table b g cs :: bs =>
    match parseCells (sub i) 0 ty cs with
    | .error e => .error e
    | .ok q =>
      match parseTables sub (i + 1) q.2 bs with
      | .error e => .error e
      | .ok r => .ok (.table b g q.1 :: r.1, r.2)

/-- `Layout.parse` (page/Layout.py L67-85), as `Lay.parse`. -/
def parse (c : Cfg) (fmt : Format α) (nid : Lay.Ids) : ℕ → List ℕ → Rect → List ℕ → State α → Except Err (List (Blk α) × Types)
  | 0, _, _, _, _ => .error (.exn "RecursionError")
  | depth + 1, path, box, ss, st =>
    match stages c nid path box ss st with
    | .error e => .error e
    | .ok st' =>
      match splitBack c.base.lay st'.blocks with
      | .error e => .error e
      | .ok bs =>
        parseTables (fun i j ty cell sub => parse c fmt nid depth (path ++ [i, j]) cell.info.working [1, 2] ⟨sub, cell.sub, ty⟩) 0
          ⟨st'.types.done, st'.types.styled ++ fmt path st st' bs⟩ bs

/-- A page: blocks and shapes after `clean_up` (page/Layout.py L89-110), nothing typed yet. `detect_initial_categories` (L110) sorts the blocks. -/
def parsePage (c : Cfg) (fmt : Format α) (nid : Lay.Ids) (depth : ℕ) (page : Rect) (shapes : List Sh) (bs : List (Blk α)) : Except Err (List (Blk α) × Types) :=
  parse c fmt nid depth [] page [0, 1, 2] ⟨sortBlocks bs, mkSub (sortBlocks bs) shapes, ⟨[], []⟩⟩

/-! ## Forgetting styles and shapes -/

mutual
/-- The block without styles and shapes. -/
def Blk.erase : Blk α → Lay.Blk α
  | .text b ls => .text b ls
  | .table b _ cs => .table b (eraseCells cs)
def eraseCells : List (Cell × List (Blk α)) → List (Rect × List (Lay.Blk α))
  | [] => []
  | (c, bs) :: cs => (c.info.box, erase bs) :: eraseCells cs
/-- A layout without styles and shapes. -/
def erase : List (Blk α) → List (Lay.Blk α)
  | [] => []
  | b :: bs => b.erase :: erase bs
end

end Full
