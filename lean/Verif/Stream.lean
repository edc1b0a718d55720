import Verif.Border
import Verif.Graph
import Verif.Lines
/-! # Model of stream (borderless) tables: `table/TablesConstructor.py` L164-427, `text/Lines.py` L201-257, `page/Blocks.py` L228-320

A line of text (or a table standing for a line) is seen through its box and direction. Borders live in a list (`Border.State`); a border is
named by its position. -/

namespace Stream
open Py Geom

/-- Groups of a relation. `Graph.group` never raises (theorem `C21_elements_conserved`), so the second case does not occur. -/
def groups {α : Type} (iter : List ℕ → List ℕ) (f : α → α → Bool) (xs : List α) : List (List α) :=
  match Graph.group iter f xs with
  | .ok gs => gs
  | .error _ => []

/-- `bbox` of a group of lines (common/Collection.py L30-37). -/
def hull (g : List El) : Rect := Coll.bbox (g.map El.bbox)

/-- `Lines.group_by_columns` (text/Lines.py L237-245). -/
def columns (iter : List ℕ → List ℕ) (ls : List El) : List (List El) :=
  sortBy (fun g => (hull g).x0) (groups iter (fun a b => a.verticallyAlign b 0 false) ls)

/-- `Lines.group_by_rows` (text/Lines.py L248-257); `constants.FACTOR_A_FEW = 0.1`. -/
def rows (iter : List ℕ → List ℕ) (ls : List El) : List (List El) :=
  sortBy (fun g => (hull g).y0) (groups iter (fun a b => a.horizontallyAlign b (1 / 10) true) ls)

/-- New border (table/Border.py L32-71). -/
def bd (horizontal : Bool) (lo hi : ℚ) (lb ub : ℕ) (reference : Bool) : Border.Bd :=
  ⟨horizontal, lo, hi, lb, ub, reference, none, 0, 0⟩

/-- Set `is_reference = False` (TablesConstructor.py L372-374). -/
def setReal (st : Border.State) (is : List ℕ) : Border.State := is.foldl (fun st i => st.modify i fun b => { b with reference := false }) st

/-- The recursive call: lines, top, bottom, left, right. -/
abbrev Call := List El → ℕ → ℕ → ℕ → ℕ → Border.State → Option Border.State

/-- The loop over the rows of a column (TablesConstructor.py L402-425); `top` is the border above the next row. -/
def rowLoop (call : Call) (reference : Bool) (B left right : ℕ) : ℕ → List (List El) → Border.State → Option Border.State
  | _, [], st => some st
  | top, [r], st => call r top B left right st
  | top, r :: q :: rest, st =>
    (call r top st.length left right (st ++ [bd true (hull r).y1 (hull q).y0 left right reference])).bind
      (rowLoop call reference B left right st.length (q :: rest))

/-- The work for one column (TablesConstructor.py L396-425). -/
def colWork (iter : List ℕ → List ℕ) (call : Call) (reference : Bool) (T B left right : ℕ) (c : List El) (st : Border.State) :
    Option Border.State :=
  if (rows iter c).length = 1 then some st else rowLoop call reference B left right T (rows iter c) st

/-- The loop over the columns (TablesConstructor.py L379-425); `left` is the border left of the next column. -/
def colLoop (iter : List ℕ → List ℕ) (call : Call) (reference : Bool) (T B R : ℕ) : ℕ → List (List El) → Border.State → Option Border.State
  | _, [], st => some st
  | left, [c], st => colWork iter call reference T B left R c st
  | left, c :: d :: rest, st =>
    (colWork iter call reference T B left st.length c (st ++ [bd false (hull c).x1 (hull d).x0 T B false])).bind
      (colLoop iter call reference T B R st.length (d :: rest))

/-- `_inner_borders` (TablesConstructor.py L334-427), adding to the borders so far; `none` if more than `depth` nested calls are
needed. -/
def inner (iter : List ℕ → List ℕ) : ℕ → Call
  | 0, _, _, _, _, _, _ => none
  | depth + 1, ls, T, B, L, R, st =>
    let cs := columns iter ls
    colLoop iter (inner iter depth) (decide (cs.length ≤ 2)) T B R L cs (if 2 ≤ cs.length then setReal st [T, B, L, R] else st)

/-- `_outer_borders` (TablesConstructor.py L300-330): top, bottom, left, right. -/
def outer (i o : Rect) : Border.State :=
  [bd true o.y0 i.y0 2 3 false, bd true i.y1 o.y1 2 3 false, bd false o.x0 i.x0 0 1 false, bd false i.x1 o.x1 0 1 false]

/-- Bounding box of the lines of a table (TablesConstructor.py L228-231). -/
def tableBox (ls : List El) : Rect :=
  ⟨Table.minOf (ls.map fun l => l.bbox.x0), Table.minOf (ls.map fun l => l.bbox.y0),
   Table.maxOf (ls.map fun l => l.bbox.x1), Table.maxOf (ls.map fun l => l.bbox.y1)⟩

/-- `top_bottom_boundaries` (TablesConstructor.py L184-214) over the boxes of the blocks; `lo` is `y_lower`, `Y1` the default of `y_upper`. -/
def boundaries (Y1 y0 y1 : ℚ) : ℚ → List Rect → ℚ × ℚ
  | lo, [] => (lo, Y1)
  | lo, b :: bs =>
    let lo := if b.y1 < y0 then b.y1 else lo
    if y1 < b.y0 then (lo, b.y0) else boundaries Y1 y0 y1 lo bs

/-- The outer box of a table (TablesConstructor.py L234-236). -/
def outerBox (page : Rect) (blocks : List Rect) (ls : List El) : Rect :=
  let r := boundaries page.y1 (tableBox ls).y0 (tableBox ls).y1 page.y0 blocks
  ⟨page.x0, r.1, page.x1, r.2⟩

/-- The borders of a stream table before they are placed (TablesConstructor.py L237, L278-287). -/
def borders (iter : List ℕ → List ℕ) (depth : ℕ) (page : Rect) (blocks : List Rect) (ls : List El) : Option Border.State :=
  inner iter depth ls 0 1 2 3 (outer (tableBox ls) (outerBox page blocks ls))

/-! ## Which lines make a table -/

/-- A block as `collect_stream_lines` sees it: box and direction, its lines (for a table block the block's own box, Blocks.py
L253-254), whether `is_flow_layout` (text/Lines.py L201-234; always true for a table, common/Block.py L165-167). -/
structure SBlock where
  el : El
  lines : List El
  flow : Bool
  deriving DecidableEq

/-- A shading: box, and whether its type is determined already; white ones are excluded (Blocks.py L256-259). -/
structure SShape where
  bbox : Rect
  determined : Bool
  deriving DecidableEq

/-- State of the loop (Blocks.py L262-267): finished tables, lines of the current table, `new_line`, the shadings from `j` on. -/
structure CSt where
  res : List (List El)
  cur : List El
  newLine : Bool
  shadings : List SShape
  deriving DecidableEq

/-- Lines without a box are not added (`Collection.extend`). -/
def addLines (cur ls : List El) : List El := cur ++ ls.filter El.truthy

/-- Step (a) (Blocks.py L276-284): `constants.FACTOR_MOST = 0.9`. -/
def stepShading (b next : SBlock) (s : CSt) : CSt :=
  match s.shadings with
  | [] => s
  | sh :: rest =>
    if !sh.determined && El.contains ⟨sh.bbox, .leftRight⟩ b.el (9 / 10) then { s with cur := addLines s.cur b.lines, newLine := false }
    else if sh.bbox.y1 < next.el.bbox.y0 then { s with shadings := rest } else s

/-- Step (b) (Blocks.py L287-291). -/
def stepFlow (b : SBlock) (s : CSt) : CSt :=
  if s.newLine && !b.flow then { s with cur := addLines s.cur b.lines, newLine := false } else s

/-- Step (c) and the end of a table (Blocks.py L295-318). -/
def stepRow (b next : SBlock) (last : Bool) (s : CSt) : CSt :=
  let r : CSt × Bool :=
    if b.el.horizontallyAlign next.el 0 true then
      ({ s with cur := addLines (if s.newLine then addLines s.cur b.lines else s.cur) next.lines, newLine := false }, false)
    else ({ s with newLine := true }, s.newLine)
  if !r.1.cur.isEmpty && (r.2 || last) then { r.1 with res := r.1.res ++ [r.1.cur], cur := [] } else r.1

/-- `Block()`. -/
def noBlock : SBlock := ⟨⟨Rect.zero, .leftRight⟩, [], true⟩

/-- The loop (Blocks.py L268-318). -/
def collectLoop : List SBlock → CSt → CSt
  | [], s => s
  | [b], s => stepRow b noBlock true (stepFlow b (stepShading b noBlock s))
  | b :: n :: bs, s => collectLoop (n :: bs) (stepRow b n false (stepFlow b (stepShading b n s)))

/-- `collect_stream_lines` (Blocks.py L228-320). -/
def collect (shadings : List SShape) (bs : List SBlock) : List (List El) := (collectLoop bs ⟨[], [], true, shadings⟩).res

/-- `Lines.is_flow_layout` (text/Lines.py L201-234); `constants.FACTOR_ALMOST = 0.95`. `dis` compares `bbox[idx]` of a line with
`bbox[(idx+2)%4]` of the one before it in the group. -/
def isFlow {σ : Type} (iter : List ℕ → List ℕ) (tol sep : ℚ) (ls : List (Lns.Ln σ)) : Bool :=
  (groups iter (fun a b : Lns.Ln σ => a.el.horizontallyAlign b.el tol true && !a.el.verticallyAlign b.el (19 / 20) true) ls).all fun g =>
    match g with
    | [] => true
    | [_] => true
    | l :: rest =>
      (l :: rest).all (fun x => Lns.sameParent x l) && (l :: rest).all (fun x => x.el.inSameRow l.el) &&
      ((l :: rest).zip rest).all fun p =>
        decide ((if Coll.textDirection (ls.map Lns.Ln.el) = .leftRight then |p.2.bbox.x0 - p.1.bbox.x1| else |p.2.bbox.y1 - p.1.bbox.y0|) < sep)

end Stream
