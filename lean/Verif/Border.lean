import Verif.Table
/-! # Model of `table/Border.py`: the borders of stream tables

A `Borders` collection is a list; the boundary borders of a border are positions in it (all of them are members of the collection,
table/TablesConstructor.py L283-292). A border is finalized iff it has a value. -/

namespace Border
open Py Geom

/-- `Border` (table/Border.py L32-71). `value = none`: not finalized. -/
structure Bd where
  horizontal : Bool
  lo : ℚ
  hi : ℚ
  lb : ℕ
  ub : ℕ
  reference : Bool
  value : Option ℚ := none
  width : ℚ := 0
  color : ℕ := 0
  deriving DecidableEq, Repr

/-- `Border.value` (table/Border.py L74-79). -/
def Bd.pos (b : Bd) : ℚ := b.value.getD ((b.lo + b.hi) / 2)

/-- `Border.is_valid` (table/Border.py L91-101); `constants.MINOR_DIST = 1`. -/
def Bd.isValid (b : Bd) (v : ℚ) : Bool := decide (b.lo - 1 ≤ v ∧ v ≤ b.hi + 1)

/-- `Border.finalize_by_value` (table/Border.py L149-162) on one border. -/
def Bd.finalize (b : Bd) (v : ℚ) : Bd :=
  if b.value.isSome || !b.isValid v then b else { b with value := some v, reference := false }

/-- All borders of a table. -/
abbrev State := List Bd

/-- `finalize_by_value` of the border at position `i`. -/
def byValue (st : State) (i : ℕ) (v : ℚ) : State := st.modify i fun b => b.finalize v

/-- A stroke as seen here: main position, extent, direction, width, colour (shape/Shape.py L124-161), and whether its type is
already determined. -/
structure Line where
  horizontal : Bool
  low : ℚ
  up : ℚ
  value : ℚ
  width : ℚ := 0
  color : ℕ := 0
  determined : Bool := false
  deriving DecidableEq, Repr

/-- Default for positions out of range (never used: positions are valid). -/
def dummy : Bd := ⟨true, 0, 0, 0, 0, true, none, 0, 0⟩

/-- `Border.finalize_by_stroke` (table/Border.py L165-203) for the border at position `i`. The change of the stroke's type is left out:
each stroke is used once. -/
def byStroke (st : State) (i : ℕ) (s : Line) : State :=
  let b := st.getD i dummy
  if !b.isValid s.value then st
  else if (st.getD b.lb dummy).hi < s.low ∧ s.up < (st.getD b.ub dummy).lo then st
  else
    let st := if b.value.isSome then st
      else st.modify i fun b => { b.finalize s.value with color := s.color, width := s.width }
    byValue (byValue st b.lb s.low) b.ub s.up

/-- `Borders._finalize_by_strokes` (table/Border.py L297-307). -/
def byStrokes (st : State) (strokes : List Line) : State :=
  strokes.foldl (fun st s => if s.determined then st
    else (List.range st.length).foldl (fun st i => if s.horizontal ≠ (st.getD i dummy).horizontal then st else byStroke st i s) st) st

/-- Insert without duplicates / `list(set(…))` followed by `sort` (table/Border.py L327-334). -/
def points (bs : List Bd) : List ℚ := (sortBy (fun x => x) (bs.flatMap fun b => [b.lo, b.hi])).dedup

/-- The centre points with the status of all borders, those crossing most borders first (table/Border.py L337-345; `reverse=True`
keeps the order of equal elements). -/
def statuses (bs : List Bd) : List (ℚ × List Bool) :=
  sortBy (fun e => -(e.2.count true : ℤ)) ((Table.mids (points bs)).map fun x => (x, bs.map fun b => b.isValid x))

/-- The loop of `_finalize_by_layout` (table/Border.py L348-364); `idx` are the positions of the borders. -/
def layoutLoop (idx : List ℕ) : List Bool → List (ℚ × List Bool) → State → State
  | _, [], st => st
  | cur, (x, s) :: rest, st =>
    if cur.all id then st
    else if (cur.zip s).any fun p => p.1 && p.2 then layoutLoop idx cur rest st
    else layoutLoop idx ((cur.zip s).map fun p => p.1 || p.2) rest
      ((idx.zip s).foldl (fun st p => if p.2 then byValue st p.1 x else st) st)

/-- `Borders._finalize_by_layout` (table/Border.py L310-364). -/
def byLayout (st : State) (idx : List ℕ) : State :=
  layoutLoop idx (idx.map fun _ => false) (statuses (idx.map fun i => st.getD i dummy)) st

/-- Consecutive pairs. -/
def pairs {α : Type} : List α → List (α × α)
  | a :: b :: l => (a, b) :: pairs (b :: l)
  | _ => []

/-- `Borders._add_full_dummy_borders` (table/Border.py L367-406). `order` is the iteration order of the set of ranges. The dictionary
of existing borders is filled with bound methods as keys, hence never answers (L381 lacks the call parentheses). -/
def addDummies (order : List (ℚ × ℚ) → List (ℚ × ℚ)) (st : State) : State :=
  let ranges := order (((st.filter fun b => b.horizontal).map fun b => (b.lo, b.hi)).dedup)
  let vs := sortBy (fun i => (st.getD i dummy).pos) ((List.range st.length).filter fun i => !(st.getD i dummy).horizontal)
  st ++ (pairs vs).flatMap fun p =>
    let l := st.getD p.1 dummy
    let r := st.getD p.2 dummy
    if l.lb ≠ r.lb ∧ l.ub ≠ r.ub then []
    else
      let lower := max (st.getD l.lb dummy).lo (st.getD r.lb dummy).lo
      let upper := min (st.getD l.ub dummy).hi (st.getD r.ub dummy).hi
      ranges.filterMap fun q => if upper < q.1 ∨ q.2 < lower then none
        else some { horizontal := true, lo := q.1, hi := q.2, lb := p.1, ub := p.2, reference := true }

/-- The four sides of a filling (table/Border.py L272-281); the coloured, undetermined ones are given. -/
def sides (r : Rect) : List Line :=
  [⟨true, r.x0, r.x1, r.y0, 0, 0, false⟩, ⟨true, r.x0, r.x1, r.y1, 0, 0, false⟩,
   ⟨false, r.y0, r.y1, r.x0, 0, 0, false⟩, ⟨false, r.y0, r.y1, r.x1, 0, 0, false⟩]

/-- Positions of the borders to be placed by layout (table/Border.py L284-294). -/
def open_ (h : Bool) (st : State) : List ℕ :=
  (List.range st.length).filter fun i =>
    let b := st.getD i dummy
    !(b.value.isSome || b.reference) && (b.horizontal == h)

/-- `Borders.finalize` (table/Border.py L248-294): `fills` are the fillings that are neither determined nor white. Both lists of open
borders are computed before the first layout step. -/
def finalize (order : List (ℚ × ℚ) → List (ℚ × ℚ)) (strokes : List Line) (fills : List Rect) (st : State) : State :=
  let st := byStrokes (byStrokes (addDummies order st) strokes) (fills.flatMap sides)
  byLayout (byLayout st (open_ true st)) (open_ false st)

/-- `Border.to_stroke` (table/Border.py L206-213): `none` for a reference; otherwise the centre line (L82-88) as
`(x0, y0, x1, y1)` with width and colour. -/
def toStroke (st : State) (b : Bd) : Option ((ℚ × ℚ × ℚ × ℚ) × ℚ × ℕ) :=
  if b.reference then none
  else
    let l := (st.getD b.lb dummy).pos
    let u := (st.getD b.ub dummy).pos
    some (if b.horizontal then (l, b.pos, u, b.pos) else (b.pos, l, b.pos, u), b.width, b.color)

end Border
