import Verif.Color
import Verif.Py
/-! # Writing a table to the docx: cells, merged regions, cell properties

Models `TableBlock.make_docx` (table/TableBlock.py L154-165), `Row.make_docx` (table/Row.py L57-77, the loop over the cells),
`Cell.make_docx` and `Cell._set_style` (table/Cell.py L144-229) and `set_cell_border`, `set_cell_shading`, `set_cell_margins`,
`set_vertical_cell_direction` (common/docx.py L322-426).

`python-docx` (not in the repository, part of the trusted base):
* `add_table(rows, cols)` makes a grid of cells, each with one empty paragraph and no property;
* `table.cell(i, j)` is entry `j + i * cols` of the list of grid positions in row-major order; at a position covered by a merged
  region it is the upper left cell of the region;
* `a.merge(b)` makes the rectangle spanned by two cells one region. It is modelled for positions not merged before; otherwise the
  model raises (`InvalidSpanError` in most cases). It is proved that this never happens if the cells tile the grid;
* `clear_content` removes what the cell contains, but not its properties.

Simplifications: what the blocks of a cell write to it is an opaque value `β` (see `Docx.lean`); an empty cell has the value
`none`. Row heights are left out. The properties `tcW`, `gridSpan` and `vMerge`, which `python-docx` puts at their places itself, are
not in the list of properties; the width is a field of its own. -/

namespace CellDocx

/-- One value for each side of a cell. -/
structure Sides (α : Type) where
  top : α
  right : α
  bottom : α
  left : α
deriving DecidableEq, Repr

/-- A cell of a parsed table (`Cell`, table/Cell.py L13-25) that is not merged away: numbers of rows and columns, background, width
and colour of the borders, whether all its text runs upwards (`layout.blocks.is_vertical_text`), the width of its box, and what its
blocks write (`none`: it has no blocks). -/
structure Parsed (β : Type) where
  span : ℕ × ℕ
  bg : Option ℕ
  width : Sides ℚ
  color : Sides ℕ
  vertical : Bool
  boxWidth : ℚ
  content : Option β

/-- The child elements of `w:tcBorders`: names of the sides in docx. -/
inductive Edge
  | start | top | end_ | bottom
deriving DecidableEq, Repr

/-- A border in the docx: `w:sz` and the six digits of `w:color` (`w:val` is always `single`). -/
structure Line where
  sz : ℚ
  color : List ℕ
deriving DecidableEq, Repr

/-- A child element of `w:tcPr` written by pdf2docx. -/
inductive TcPr
  | borders (edges : List (Edge × Line))
  | shd (fill : List ℕ)
  | mar (start end_ : ℕ)
  | dir
deriving DecidableEq, Repr

/-- A cell of the docx table. -/
structure Tc (β : Type) where
  pr : List TcPr
  width : Option ℚ
  body : Option β

/-- A docx table: its size, the upper left cell of the region each position belongs to, and the cells. -/
structure Grid (β : Type) where
  rows : ℕ
  cols : ℕ
  own : ℕ × ℕ → ℕ × ℕ
  tc : ℕ × ℕ → Tc β

variable {β : Type}

/-- `doc.add_table(rows, cols)`. -/
def Grid.new (r c : ℕ) : Grid β := ⟨r, c, fun p => p, fun _ => ⟨[], none, none⟩⟩

/-- `table.cell(i, j)`. -/
def Grid.cell (g : Grid β) (i j : ℕ) : Except Py.Err (ℕ × ℕ) :=
  if j + i * g.cols < g.rows * g.cols then .ok (g.own ((j + i * g.cols) / g.cols, (j + i * g.cols) % g.cols)) else .error .index

/-- Change one cell. -/
def Grid.modify (g : Grid β) (p : ℕ × ℕ) (f : Tc β → Tc β) : Grid β :=
  { g with tc := fun q => if q = p then f (g.tc q) else g.tc q }

/-- `hex(c)[2:].zfill(6)`; upper and lower case are not told apart. -/
def hex6 (c : ℕ) : List ℕ := Color.zfill 6 (Color.hexDigits c)

/-- The dictionary `kwargs` of the sides with a border (Cell.py L198-207), as a function. -/
def kwargs (w : Sides ℚ) (c : Sides ℕ) : Edge → Option Line
  | .top => if w.top = 0 then none else some ⟨8 * w.top, hex6 c.top⟩
  | .end_ => if w.right = 0 then none else some ⟨8 * w.right, hex6 c.right⟩
  | .bottom => if w.bottom = 0 then none else some ⟨8 * w.bottom, hex6 c.bottom⟩
  | .start => if w.left = 0 then none else some ⟨8 * w.left, hex6 c.left⟩

/-- Set one border element: overwritten if it exists, else appended (docx.py L402-410). -/
def setEdge (edges : List (Edge × Line)) (e : Edge) (l : Line) : List (Edge × Line) :=
  if edges.any (fun x => x.1 = e) then edges.map (fun x => if x.1 = e then (e, l) else x) else edges ++ [(e, l)]

/-- The loop over the sides (docx.py L396-410). `insideH` and `insideV` are never given. -/
def setEdges (kw : Edge → Option Line) (edges : List (Edge × Line)) : List (Edge × Line) :=
  [Edge.start, .top, .end_, .bottom].foldl (fun es e => match kw e with
    | some l => setEdge es e l
    | none => es) edges

/-- `set_cell_border` (docx.py L365-410): the first `w:tcBorders` is changed, or a new one appended. -/
def setBorder (kw : Edge → Option Line) : List TcPr → List TcPr
  | [] => [.borders (setEdges kw [])]
  | .borders es :: rest => .borders (setEdges kw es) :: rest
  | p :: rest => p :: setBorder kw rest

/-- The grid positions `range(i, i+m) × range(j, j+n)`. -/
def region (i j m n : ℕ) : List (ℕ × ℕ) :=
  (List.range' i m).flatMap fun a => (List.range' j n).map fun b => (a, b)

/-- What `Cell._set_style` reads. The placeholder `Cell()` of a position merged away has the default values (Cell.py L15-22): one row
and column, no background, no borders, no text. -/
structure Style where
  span : ℕ × ℕ
  bg : Option ℕ
  kw : Edge → Option Line
  vertical : Bool

/-- The style of an entry of the table. -/
def styleOf : Option (Parsed β) → Style
  | none => ⟨(1, 1), none, fun _ => none, false⟩
  | some c => ⟨c.span, c.bg, kwargs c.width c.color, c.vertical⟩

/-- `set_cell_shading` (docx.py L351-362) if there is a background (`bg_color != None`, so black counts). -/
def bgPr : Option ℕ → List TcPr
  | some c => [.shd (hex6 c)]
  | none => []

/-- `set_vertical_cell_direction` (docx.py L413-426). -/
def dirPr : Bool → List TcPr
  | true => [.dir]
  | false => []

/-- Background, margins and text direction (Cell.py L214-229), after the borders; each element is appended. -/
def setOwn (s : Style) (pr : List TcPr) : List TcPr := pr ++ bgPr s.bg ++ [.mar 0 0] ++ dirPr s.vertical

/-- `Cell._set_style` (Cell.py L183-229). -/
def setStyle (s : Style) (i j : ℕ) (g : Grid β) : Except Py.Err (Grid β) := do
  let me ← g.cell i j
  let g ← (region i j s.span.1 s.span.2).foldlM (fun g p => do
    let q ← g.cell p.1 p.2
    pure (g.modify q fun t => { t with pr := setBorder s.kw t.pr })) g
  pure (g.modify me fun t => { t with pr := setOwn s t.pr })

/-- `docx_cell.merge(_cell)` for positions not merged before. -/
def merge (i j m n : ℕ) (g : Grid β) : Except Py.Err (Grid β) :=
  if (region i j m n).all fun p => g.own p = p then
    .ok { g with own := fun p => if p ∈ region i j m n then (i, j) else g.own p }
  else .error .value

/-- Merging in `Cell.make_docx` (Cell.py L157-163). -/
def mergeCell (i j m n : ℕ) (g : Grid β) : Except Py.Err (Grid β) :=
  if m * n ≠ 1 then do
    let _ ← g.cell (i + m - 1) (j + n - 1)
    merge i j m n g
  else pure g

/-- `Cell.make_docx` (Cell.py L143-180). -/
def makeCell (c : Option (Parsed β)) (i j : ℕ) (g : Grid β) : Except Py.Err (Grid β) := do
  let g ← setStyle (styleOf c) i j g
  match c with
  | none => pure g
  | some c => do
    let me ← g.cell i j
    let g ← mergeCell i j c.span.1 c.span.2 g
    pure (g.modify me fun t => { t with width := some c.boxWidth, body := c.content.or t.body })

/-- `TableBlock.make_docx` and `Row.make_docx`: all positions in row-major order. `cells i j` is the parsed cell at a position,
`none` if it is merged away. -/
def makeTable (r c : ℕ) (cells : ℕ → ℕ → Option (Parsed β)) : Except Py.Err (Grid β) :=
  (List.range (r * c)).foldlM (fun g k => makeCell (cells (k / c) (k % c)) (k / c) (k % c) g) (Grid.new r c)

end CellDocx
