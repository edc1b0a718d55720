import Verif.Pipe
import Verif.Full
import Verif.Page
/-! # From the extracted page to the document, tables included

As `Pipe.lean`, but with the closed model of the layout (`Full.lean`): which tables are found, and the rows of their cells, is computed from text and drawings of the page,
not given. What remains given: styles and spacing (`Fmt`, its `grid` is not used), identities of new blocks, and which shapes style text. -/

namespace Whole
open Geom Py Pipe

/-- The settings used. -/
structure Cfg where
  ws : Char → Bool
  gap : ℚ
  ov : ℚ
  mg : ℚ
  full : Full.Cfg

/-- The settings of the clean-up. -/
def Cfg.pipe (c : Cfg) : Pipe.Cfg := ⟨c.ws, c.gap, c.ov, c.mg, c.full.base.lay⟩

mutual
/-- A parsed block as it is rendered (page/Blocks.py L507-535, table/TableBlock.py L155-166). -/
def block (ws : Char → Bool) (f : Fmt) : Full.Blk Tok → Docx.Block Par
  | .text b ls => .text (paragraph ws f (b, ls))
  | .table b g cs => .table (f.before b) (place g (cells ws f cs))
/-- The cells of a table (table/Row.py L57-77, table/Cell.py L144-178). -/
def cells (ws : Char → Bool) (f : Fmt) : List (Full.Cell × List (Full.Blk Tok)) → List (List (Docx.Block Par))
  | [] => []
  | (_, bs) :: cs => blocks ws f bs :: cells ws f cs
/-- A layout. -/
def blocks (ws : Char → Bool) (f : Fmt) : List (Full.Blk Tok) → List (Docx.Block Par)
  | [] => []
  | b :: bs => block ws f b :: blocks ws f bs
end

/-- A page to be converted: its box, its working area (`Page.working_bbox`, page/Page.py L101-106: the box without the margins; `Page.workArea` is what the code computes), section properties, extracted blocks, its shapes (after `Shapes.clean_up`, shape/Shapes.py L103-154; see `Shapes.lean`), identities of new
blocks, shapes that style text, formats. -/
structure Page (π : Type) where
  box : Rect
  work : Rect
  props : π
  raw : List Raw
  shapes : List Full.Sh
  ids : Lay.Ids
  styled : Full.Format Tok
  fmt : Fmt

variable {π : Type}

/-- The working area as the code computes it (`Page._cal_margin` right after the clean-up, page/Page.py L217-226, L244-272; `Page.working_bbox`, L101-106): from the boxes of the cleaned-up
blocks and shapes. `top`, `bottom`: the settings `page_margin_factor_top` and `page_margin_factor_bottom`. Pages start at (0, 0) (L92-93). -/
def Page.workArea (c : Cfg) (top bottom : ℚ) (p : Page π) : Except Err Rect :=
  match cleanUp c.pipe p.box p.raw with
  | .error e => .error e
  | .ok r => .ok (_root_.Page.workingBbox p.box.x1 p.box.y1
      (_root_.Page.calMargin p.box.x1 p.box.y1 (r.1.map fun b => b.bbox) (p.shapes.map fun s => s.bbox) top bottom))

/-- A page parsed and ready for rendering: `Page.parse` (page/Page.py L143-156) with at most `depth` nested layouts. -/
def parsePage (c : Cfg) (depth : ℕ) (p : Page π) : Except Err (Docx.PageData Par Sp π) :=
  match cleanUp c.pipe p.box p.raw with
  | .error e => .error e
  | .ok r =>
    match Full.parsePage c.full p.styled p.ids depth p.work p.shapes (r.1.map fun b => .text b.bbox b.lines) with
    | .error e => .error e
    | .ok bs => .ok ⟨p.props, blocks c.ws p.fmt bs.1, r.2⟩

/-- `Converter.convert` on pages that are all parsed (converter.py): the document, on a new one with section properties `p0`. -/
def convert (c : Cfg) (depth : ℕ) (p0 : π) (pages : List (Page π)) : Except Err (Docx.Doc Par Sp π) :=
  match pages.mapM (parsePage c depth) with
  | .error e => .error e
  | .ok ds => .ok (Docx.makeDoc p0 ds)

end Whole
