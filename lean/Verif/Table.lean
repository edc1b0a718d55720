import Verif.Collection
/-! # Model of `table/TableStructure.py`: from strokes to the cells of a table -/

namespace Table
open Py Geom

/-- A stroke: centre line from `(x0, y0)` to `(x1, y1)`, box, line width and colour (shape/Shape.py L124-161). -/
structure St where
  x0 : ℚ
  y0 : ℚ
  x1 : ℚ
  y1 : ℚ
  bbox : Rect
  width : ℚ
  color : ℕ
  deriving DecidableEq, Repr

/-- `Stroke()`. -/
def St.empty : St := ⟨0, 0, 0, 0, Rect.zero, 0, 0⟩

/-- `Stroke().update_bbox(rect)` for a rectangle without area (shape/Shape.py L164-184): a line of width 0. -/
def St.line (r : Rect) : St := ⟨r.x0, r.y0, r.x1, r.y1, r.round, 0, 0⟩

/-- `Stroke.horizontal`, `Stroke.vertical` (shape/Shape.py L146-149). -/
def St.horizontal (s : St) : Bool := decide (|s.y0 - s.y1| < 1 / 1000)
def St.vertical (s : St) : Bool := decide (|s.x0 - s.x1| < 1 / 1000)

/-! ## Grouping of strokes -/

section Group
variable {α : Type}

/-- A Python dict in insertion order. -/
abbrev Dict (α : Type) := List (ℚ × List α)

/-- `d[k] = v`. -/
def dset (d : Dict α) (k : ℚ) (v : List α) : Dict α :=
  if d.any (fun e => decide (e.1 = k)) then d.map fun e => if e.1 = k then (k, v) else e else d ++ [(k, v)]

/-- One stroke `a` at position `y` (table/TableStructure.py L357-367 for rows, L375-385 for columns); `c` is `min_border_clearance`. -/
def addStroke (c : ℚ) (d : Dict α) (y : ℚ) (a : α) : Dict α :=
  match d.find? fun e => decide (|y - e.1| ≤ c) with
  | some (k, g) => dset (d.filter fun e => decide (e.1 ≠ k)) ((k + y) / 2) (g ++ [a])
  | none => dset d y [a]

/-- All strokes of one direction, in order. -/
def groupBy (c : ℚ) (l : List (ℚ × α)) : Dict α := l.foldl (fun d p => addStroke c d p.1 p.2) []

end Group

/-- `_group_h_v_strokes` (table/TableStructure.py L327-401) up to the outer borders: rows, columns, and the table region (`none` if a
direction has no strokes). -/
def groupHV (c : ℚ) (strokes : List St) : Dict St × Dict St :=
  let hs := strokes.filter St.horizontal
  let vs := strokes.filter fun s => !s.horizontal && s.vertical
  (groupBy c (hs.map fun s => (round1 s.y0, s)), groupBy c (vs.map fun s => (round1 s.x0, s)))

/-- `min`, `max` of a non-empty list. -/
def minOf : List ℚ → ℚ
  | [] => 0
  | x :: xs => xs.foldl min x
def maxOf : List ℚ → ℚ
  | [] => 0
  | x :: xs => xs.foldl max x

/-- Table region (table/TableStructure.py L353, L370-371, L388-389, L395): x-range of the horizontal strokes, y-range of the vertical ones. -/
def region (strokes : List St) : Rect :=
  let hs := strokes.filter St.horizontal
  let vs := strokes.filter fun s => !s.horizontal && s.vertical
  (⟨minOf (hs.map St.x0), minOf (vs.map St.y0), maxOf (hs.map St.x1), maxOf (vs.map St.y1)⟩ : Rect).round

/-! ## Outer borders -/

/-- Direction of `_check_outer_strokes`. -/
inductive Side where
  | top | bottom | left | right
  deriving DecidableEq

/-- A line of the table frame on the given side, between `a` and `b` along the frame (table/TableStructure.py L489-493: `bbox[idx]` and `bbox[(idx+2)%4]` are
the target, the other two coordinates `a` and `b`). -/
def frameLine (s : Side) (target a b : ℚ) : St :=
  match s with
  | .top | .bottom => St.line ⟨a, target, b, target⟩
  | .left | .right => St.line ⟨target, a, target, b⟩

/-- Extent of a stroke's box along the frame (`bbox[idx_start]`, `bbox[idx_end]`). -/
def along (s : Side) (b : St) : ℚ × ℚ :=
  match s with
  | .top | .bottom => (b.bbox.x0, b.bbox.x1)
  | .left | .right => (b.bbox.y0, b.bbox.y1)

/-- The sort used for the strokes of one side (table/TableStructure.py L470-486, L521-525): `sort_in_line_order` for top and bottom, `sort_in_reading_order`
for left and right. -/
def sortSide (s : Side) (l : List St) : List St :=
  match s with
  | .top | .bottom => sortBy (fun e : St => Coll.key e.bbox.x0 e.bbox.y0 e.bbox.x1) l
  | .left | .right => sortBy (fun e : St => Coll.key e.bbox.y0 e.bbox.x0 e.bbox.x1) l

/-- The missing segments (table/TableStructure.py L504-516): `occ` are the occupied intervals, `stop` the end of the frame. `constants.MINOR_DIST = 1`. -/
def missing (s : Side) (target : ℚ) (start stop : ℚ) : List (ℚ × ℚ) → List St
  | [] => if 1 < |start - stop| then [frameLine s target start stop] else []
  | (l, r) :: occ => (if 1 < |start - l| then [frameLine s target start l] else []) ++ missing s target r stop occ

/-- `_check_outer_strokes` (table/TableStructure.py L459-525). -/
def checkOuter (table : Rect) (s : Side) (maxWidth : ℚ) (d : Dict St) : Dict St :=
  let keys := d.map Prod.fst
  let (target, start, stop) := match s with
    | .top => (table.y0, table.x0, table.x1)
    | .bottom => (table.y1, table.x0, table.x1)
    | .left => (table.x0, table.y0, table.y1)
    | .right => (table.x1, table.y0, table.y1)
  let current := match s with
    | .top | .left => minOf keys
    | .bottom | .right => maxOf keys
  let d := d.map fun e => if e.1 = current then (e.1, sortSide s e.2) else e
  if maxWidth < |target - current| then dset d target [frameLine s target start stop]
  else d.map fun e => if e.1 = current then
    (e.1, sortSide s (e.2 ++ missing s target start stop (e.2.map (along s)))) else e

/-- `_group_h_v_strokes` (table/TableStructure.py L327-401): `none` if there are no horizontal or no vertical strokes. -/
def groupStrokes (c maxWidth : ℚ) (strokes : List St) : Option (Dict St × Dict St) :=
  let (h, v) := groupHV c strokes
  if h = [] ∨ v = [] then none
  else
    let t := region strokes
    some (checkOuter t .bottom maxWidth (checkOuter t .top maxWidth h), checkOuter t .right maxWidth (checkOuter t .left maxWidth v))

/-! ## Merged cells -/

/-- `_check_merged_cells` for the strokes of one border line (table/TableStructure.py L554-582): is the line crossed at `ref`? The strokes are given by their
extent. -/
def status (ref : ℚ) : List (ℚ × ℚ) → Bool
  | [] => false
  | (a, b) :: l =>
    if a < ref ∧ ref < b then true
    else if b < ref then status ref l
    else if ref < a then false
    else status ref l

/-- `_check_merged_cells` (table/TableStructure.py L529-584): the last line is left out. -/
def checkMerged (ref : ℚ) (borders : List (List (ℚ × ℚ))) : List Bool := borders.dropLast.map (status ref)

/-- `_count_merged_cells` (table/TableStructure.py L587-605). The list is never empty where it is called. -/
def countMerged : List Bool → ℕ
  | true :: l => 1 + (l.takeWhile fun b => !b).length
  | _ => 0

/-- `merged_cells` of cell `(i, j)` (table/TableStructure.py L444-450): `R` are the rows, `C` the columns of the status. -/
def merged (R C : List (List Bool)) (i j : ℕ) : ℕ × ℕ :=
  (countMerged ((C.getD j []).drop i), countMerged ((R.getD i []).drop j))

/-- `CellStructure.is_merged` (table/TableStructure.py L38). -/
def isMerged (m : ℕ × ℕ) : Bool := decide (m.1 = 0 ∨ m.2 = 0)

/-- Sorted keys (`_init_cells`, table/TableStructure.py L404-420). -/
def keys (d : Dict St) : List ℚ := sortBy (fun x => x) (d.map Prod.fst)

/-- `self.v_strokes[k] for k in x_cols` (table/TableStructure.py L428, L436) with the extents used by the check: `(y0, y1)` of vertical strokes, `(x0, x1)` of horizontal
ones. -/
def lines (vertical : Bool) (d : Dict St) : List (List (ℚ × ℚ)) :=
  (keys d).map fun k => ((d.find? fun e => decide (e.1 = k)).map Prod.snd).getD [] |>.map fun s =>
    if vertical then (s.y0, s.y1) else (s.x0, s.x1)

/-- Mid points of consecutive keys. -/
def mids : List ℚ → List ℚ
  | a :: b :: l => (a + b) / 2 :: mids (b :: l)
  | _ => []

/-- Status of all rows and of all columns (`_check_merging_status`, table/TableStructure.py L423-441). -/
def statusRows (h v : Dict St) : List (List Bool) := (mids (keys h)).map fun y => checkMerged y (lines true v)
def statusCols (h v : Dict St) : List (List Bool) := (mids (keys v)).map fun x => checkMerged x (lines false h)

/-- A cell of the table block: `none` for a merged-away one, otherwise spans and box (rounded by `update_bbox`). -/
abbrev CellOut := Option ((ℕ × ℕ) × Rect)

/-- Cell `(i, j)` of the structure (table/TableStructure.py L443-456 and `to_table_block` L262-303). -/
def cellAt (xs ys : List ℚ) (R C : List (List Bool)) (i j : ℕ) : CellOut :=
  let m := merged R C i j
  if isMerged m then none
  else some (m, (⟨xs.getD j 0, ys.getD i 0, xs.getD (j + m.2) 0, ys.getD (i + m.1) 0⟩ : Rect).round)

/-- All rows of the structure. -/
def grid (xs ys : List ℚ) (R C : List (List Bool)) : List (List CellOut) :=
  (List.range (ys.length - 1)).map fun i => (List.range (xs.length - 1)).map fun j => cellAt xs ys R C i j

/-- Box of a `Row`: union of the boxes of its cells (Cells.append, Element.union_bbox). -/
def rowBox (row : List CellOut) : Rect := row.foldl (fun b c => Coll.unionBbox b ((c.map Prod.snd).getD Rect.zero)) Rect.zero

/-- `TableStructure.parse` and `to_table_block` (table/TableStructure.py L241-308): the rows of the table block. With rows but without columns the property
`x_cols` raises (`self.cells[0][-1]`, L237). `Rows` drops a row without box (`Collection.append`, common/Collection.py L161-164). -/
def tableBlock (h v : Dict St) : Except Err (List (List CellOut)) :=
  if (keys h).length < 2 then .ok []
  else if (keys v).length < 2 then .error .index
  else .ok ((grid (keys v) (keys h) (statusRows h v) (statusCols h v)).filter fun r => (rowBox r).truthy)

/-- `TableStructure(strokes, settings).parse(fills).to_table_block()`. -/
def parse (c maxWidth : ℚ) (strokes : List St) : Except Err (List (List CellOut)) :=
  match groupStrokes c maxWidth strokes with
  | none => .ok []
  | some (h, v) => tableBlock h v

/-! ## Borders and shading of a cell -/

/-- The loop of `_get_border_stroke` (table/TableStructure.py L104-116): total length and strokes found for the side `[x0, x1]`; each
stroke comes with its extent along the side. `constants.MAJOR_DIST = 5`. -/
def borderLoop {α : Type} (x0 x1 : ℚ) : List ((ℚ × ℚ) × α) → ℚ × List α
  | [] => (0, [])
  | ((t0, t1), s) :: l =>
    if t1 ≤ x0 then borderLoop x0 x1 l
    else if x1 ≤ t0 then (0, [])
    else if min x1 t1 - max x0 t0 < 5 then borderLoop x0 x1 l
    else (min x1 t1 - max x0 t0 + (borderLoop x0 x1 l).1, s :: (borderLoop x0 x1 l).2)

/-- `_get_border_stroke` (table/TableStructure.py L88-126): `none` stands for the empty `Stroke()`. `constants.FACTOR_MAJOR = 0.75`. The
side has positive length (its ends are different keys). `len(set(colors)) == 1`. -/
def borderStroke (vertical : Bool) (x0 x1 : ℚ) (strokes : List St) : Option St :=
  let r := borderLoop x0 x1 (strokes.map fun s => (if vertical then (s.y0, s.y1) else (s.x0, s.x1), s))
  if r.1 / (x1 - x0) < 3 / 4 then none
  else match r.2 with
    | [] => none
    | s :: l => if l.all fun t => decide (t.color = s.color) then some s else none

/-- `parse_shading` (table/TableStructure.py L61-85): the fill whose box contains the inner region of the cell; widths in the order
top, right, bottom, left. `constants.FACTOR_MOST = 0.9`. -/
def shading (box : Rect) (wt wr wb wl : ℚ) (fills : List Rect) : Option Rect :=
  let target : Rect := (⟨box.x0 + wl / 2, box.y0 + wt / 2, box.x1 - wr / 2, box.y1 - wb / 2⟩ : Rect).round
  fills.find? fun f => El.contains ⟨f, .leftRight⟩ ⟨target, .leftRight⟩ (9 / 10)

end Table
