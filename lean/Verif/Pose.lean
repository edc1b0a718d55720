import Verif.Styled
import Verif.Para
import Verif.Write
/-! # From the extracted page to the document, paragraph formats included

As `Styled.lean`, but spacing, indents, alignment, tab stops and line breaks are computed too, not given: `Blocks.parse_spacing` (page/Blocks.py L323-413), called for every
layout by `Layout._parse_text_format` (page/Layout.py L149-155), with `TextBlock.parse_horizontal_spacing`, `parse_line_spacing` (text/TextBlock.py L151-252),
`Lines.parse_line_break` (text/Lines.py L297-335), `Block.parse_horizontal_spacing` (common/Block.py L98-112), and what `TextBlock.make_docx` (text/TextBlock.py L255-307)
and `TableBlock.make_docx` (table/TableBlock.py L155-163) write. Page size, margins and working area are computed as well
(page/Page.py L101-106, L194-203, L217-226), so nothing of a page is given but what PyMuPDF extracts, its drawings, and identities of new objects.

Simplifications: the formats of a layout are computed after the layouts of its cells were parsed, not before; neither uses what the other one computes, so only which of two
errors comes first may differ. Lengths are not truncated to English Metric Units. The height of the last row of a table that ends a layout (L405-413) is not part of this model. -/

namespace Pose
open Geom Py Pipe

/-- The settings used: those of `Whole.lean`, and the thresholds of the paragraph formats (`lines_left_aligned_threshold`, `lines_right_aligned_threshold`,
`lines_center_aligned_threshold`, `line_free_space_ratio_threshold`; page/Page.py L73-76),
and the parts of the margins to be kept at the top and the bottom (`page_margin_factor_top`, `page_margin_factor_bottom`). -/
structure Cfg where
  whole : Whole.Cfg
  left : ℚ
  right : ℚ
  center : ℚ
  ratio : ℚ
  top : ℚ
  bottom : ℚ

/-- The thresholds of the alignment; `line_separate_threshold` is also used by the tables. -/
def Cfg.thr (c : Cfg) : Para.Thr := ⟨c.whole.full.base.lay.sep, c.left, c.right, c.center⟩

/-! ## A layout -/

/-- A block as the direction of the layout sees it. -/
def el : Deco.Blk → El
  | .text b ls _ => (Lay.Blk.text b ls).el
  | .table b _ _ => ⟨b, .leftRight⟩

/-- `blocks.is_horizontal_text` (page/Blocks.py L346, common/Collection.py L132-143). -/
def horizontal (bs : List Deco.Blk) : Bool := decide (Coll.textDirection (bs.map el) = .leftRight)

/-- `(bbox[idx0], bbox[idx1])` along the text: `idx0, idx1 = 0, 2` for horizontal text, else `3, 1` (text/TextBlock.py L167). -/
def along (h : Bool) (r : Rect) : Para.Ext := if h then (r.x0, r.x1) else (r.y1, r.y0)

/-- The direction factor (text/TextBlock.py L167). -/
def sign (h : Bool) : ℚ := if h then 1 else -1

/-- A line of a block: its box after text styling, its direction, and what is in it. -/
abbrev TL := El × List Text.Item

/-- The styled lines with their directions. -/
def tlines (ls : List (Lay.Ln Tok)) (s : Styl.TBlock) : List TL := List.zipWith (fun l t => (⟨t.bbox, l.dir⟩, t.items)) ls s.lines

/-- `not line.text.strip()` (text/Lines.py L331, text/Line.py L55-58); the text of a picture is `<image>` (image/ImageSpan.py). -/
def blank (ws : Char → Bool) (items : List Text.Item) : Bool := items.all fun
  | .image _ _ => false
  | .text s => s.text.all ws

/-- Whether a line is in the row of the next one (text/Lines.py L323, L355). -/
def sameNext (l : TL) : List TL → Bool
  | [] => false
  | n :: _ => l.1.inSameRow n.1

/-- The lines for `Para.lineBreaks`; `edge` is the side looked at. -/
def breakLines (ws : Char → Bool) (edge : Rect → ℚ) : List TL → List (ℚ × Bool × Bool)
  | [] => []
  | l :: ls => (edge l.1.bbox, sameNext l ls, blank ws l.2) :: breakLines ws edge ls

/-- What a paragraph is written from. -/
structure Form where
  horizontal : Bool
  hsp : Para.HSp
  breaks : List Bool

/-- `TextBlock.parse_horizontal_spacing` (text/TextBlock.py L151-207) with `Lines.parse_line_break` (text/Lines.py L297-335). -/
def horizontalSpacing (c : Cfg) (box : Rect) (h : Bool) (b : Rect) (ls : List TL) : Except Err Form :=
  match Graph.group c.whole.full.base.lay.iter (fun x y : TL => x.1.inSameRow y.1) ls with
  | .error e => .error e
  | .ok rows =>
    let s := Para.parse (sign h) c.thr (along h b) (along h box) (rows.map fun r => r.map fun l => along h l.1.bbox) (ls.map fun l => along h l.1.bbox)
    let edge : Rect → ℚ := fun r => if s.align = .right then (along h r).1 else (along h r).2
    let delta := if s.align = .right then s.leftTotal - s.left else s.rightTotal - s.right
    match Para.lineBreaks (edge b) delta |(along h b).2 - (along h b).1| c.ratio (breakLines c.whole.ws edge ls) with
    | .error e => .error e
    | .ok brk => .ok ⟨h, s, brk⟩

/-- Width of the top border of the first cell (`block[0][0].border_width[0]`, page/Blocks.py L366); a merged-away or empty cell has none. -/
def firstTop : List (List Bool) → List (Full.Cell × List Deco.Blk) → Except Err ℚ
  | [], _ => .error .index
  | [] :: _, _ => .error .index
  | (true :: _) :: _, c :: _ => .ok c.1.info.top
  | _ :: _, _ => .ok 0

/-- The block as vertical spacing sees it, and the format of a paragraph along the text. A text block without lines raises (`self.lines[0]`, text/TextBlock.py L230). -/
def measure (c : Cfg) (box : Rect) : Deco.Blk → Except Err (Spacing.VB × Option Form)
  | .text b ls s =>
    match horizontalSpacing c box (Lay.Blk.text b ls).el.horizontal b (tlines ls s) with
    | .error e => .error e
    | .ok f =>
      match tlines ls s with
      | [] => .error .index
      | l :: r => .ok (⟨.text, b, l.1, r.map Prod.fst, 0, (Lay.Blk.text b ls).el.horizontal⟩, some f)
  | .table b g cs =>
    match firstTop g cs with
    | .error e => .error e
    | .ok t => .ok (⟨.table, b, ⟨Rect.zero, .leftRight⟩, [], t, true⟩, none)

/-- `Blocks.parse_spacing` (page/Blocks.py L323-404): the distances of each block, and its format along the text. -/
def forms (c : Cfg) (box : Rect) (bs : List Deco.Blk) : Except Err (List (Spacing.Sp × Option Form)) :=
  match bs.mapM (measure c box) with
  | .error e => .error e
  | .ok ms => .ok (List.zipWith (fun s m => (s.2, m.2)) (Spacing.parseSpacing (horizontal bs) box (ms.map Prod.fst)) ms)

/-! ## What is written -/

/-- A paragraph of the docx: alignment, indents (left, right, first line), tab stops, distances (space before and after, line spacing), content. -/
structure Par where
  align : Para.Align
  indents : ℚ × ℚ × ℚ
  stops : List ℚ
  space : Spacing.Sp
  content : Deco.Par

/-- The lines to be written. -/
def lns (h : Bool) : List TL → List Bool → List (Para.Ln (List Text.Item))
  | [], _ => []
  | l :: ls, brk => ⟨along h l.1.bbox, l.2, brk.headD false, sameNext l ls⟩ :: lns h ls brk.tail

/-- `TextBlock.make_docx` (text/TextBlock.py L255-307). -/
def paragraph (b : Rect) (ls : List TL) (sp : Spacing.Sp) (f : Form) : Par :=
  ⟨f.hsp.align, Para.indents f.hsp, Para.writtenStops f.hsp, Write.written sp,
    Para.makeLines f.hsp.left (along f.horizontal b).1 (Para.writtenStops f.hsp) f.hsp.left (lns f.horizontal ls f.breaks)⟩

/-- A block ready for rendering: a paragraph, or a table with its indent (`indent_table`, common/docx.py L307-319) and the space above it. -/
inductive Blk where
  | text (p : Par)
  | table (bbox : Rect) (indent before : ℚ) (rows : List (List Bool)) (cells : List (Full.Cell × List Blk))

mutual
/-- The blocks of a layout, given their formats. -/
def go (c : Cfg) (box : Rect) : List (Spacing.Sp × Option Form) → List Deco.Blk → Except Err (List Blk)
  | _, [] => .ok []
  | fs, b :: bs =>
    match one c box (fs.headD (⟨0, 0, 0⟩, none)) b with
    | .error e => .error e
    | .ok x =>
      match go c box fs.tail bs with
      | .error e => .error e
      | .ok r => .ok (x :: r)
/-- A block (`Block.parse_horizontal_spacing` for tables). -/
def one (c : Cfg) (box : Rect) : Spacing.Sp × Option Form → Deco.Blk → Except Err Blk
  | (sp, some f), .text b ls s => .ok (.text (paragraph b (tlines ls s) sp f))
  | (_, none), .text _ _ _ => .error .typ
  | (sp, _), .table b g cs =>
    match cells c cs with
    | .error e => .error e
    | .ok r => .ok (.table b (b.x0 - box.x0) sp.before g r)
/-- The layouts of cells. -/
def cells (c : Cfg) : List (Full.Cell × List Deco.Blk) → Except Err (List (Full.Cell × List Blk))
  | [] => .ok []
  | (k, bs) :: cs =>
    match forms c k.info.working bs with
    | .error e => .error e
    | .ok fs =>
      match go c k.info.working fs bs with
      | .error e => .error e
      | .ok x =>
        match cells c cs with
        | .error e => .error e
        | .ok r => .ok ((k, x) :: r)
end

/-- A layout with its formats. -/
def layout (c : Cfg) (box : Rect) (bs : List Deco.Blk) : Except Err (List Blk) :=
  match forms c box bs with
  | .error e => .error e
  | .ok fs => go c box fs bs

mutual
/-- A block as it is rendered. -/
def block : Blk → Docx.Block Par
  | .text p => .text p
  | .table _ _ before g cs => .table before (place g (cellBlocks cs))
/-- Cells. -/
def cellBlocks : List (Full.Cell × List Blk) → List (List (Docx.Block Par))
  | [] => []
  | (_, bs) :: cs => blocks bs :: cellBlocks cs
/-- A layout. -/
def blocks : List Blk → List (Docx.Block Par)
  | [] => []
  | b :: bs => block b :: blocks bs
end

/-! ## Pages and documents -/

/-- A section of the docx (page/Page.py L194-203): page size and margins. -/
structure Sect where
  width : ℚ
  height : ℚ
  margin : _root_.Page.Margin
  deriving DecidableEq

/-- A page to be converted: its box (L92-93: from (0, 0) to width and height), extracted blocks, its shapes after `Shapes.clean_up`, addresses of link areas, identities of new
blocks. -/
structure Page where
  box : Rect
  raw : List Raw
  shapes : List Full.Sh
  uri : Rect → String
  ids : Lay.Ids

/-- The margin of a page with the given cleaned-up blocks (`Page._cal_margin`, page/Page.py L217-226, L244-272). -/
def Page.margin (c : Cfg) (p : Page) (bs : List Raw) : _root_.Page.Margin :=
  _root_.Page.calMargin p.box.x1 p.box.y1 (bs.map fun b => b.bbox) (p.shapes.map fun s => s.bbox) c.top c.bottom

/-- Its working area (`Page.working_bbox`, L101-106). -/
def Page.workOf (c : Cfg) (p : Page) (bs : List Raw) : Rect := _root_.Page.workingBbox p.box.x1 p.box.y1 (p.margin c bs)

/-- Its section. -/
def Page.sect (c : Cfg) (p : Page) (bs : List Raw) : Sect := ⟨p.box.x1, p.box.y1, p.margin c bs⟩

/-- A page parsed and ready for rendering: `Page.parse` (page/Page.py L143-156) with at most `depth` nested layouts. -/
def parsePage (c : Cfg) (depth : ℕ) (p : Page) : Except Err (Docx.PageData Par Sp Sect) :=
  match cleanUp c.whole.pipe p.box p.raw with
  | .error e => .error e
  | .ok r =>
    match Deco.layout c.whole.full p.uri p.ids depth (p.workOf c r.1) p.shapes (r.1.map fun b => .text b.bbox b.lines) with
    | .error e => .error e
    | .ok bs =>
      match layout c (p.workOf c r.1) bs.1 with
      | .error e => .error e
      | .ok x => .ok ⟨p.sect c r.1, blocks x, r.2⟩

/-- `Converter.convert` on pages that are all parsed (converter.py): the document, on a new one with one section `s0`. -/
def convert (c : Cfg) (depth : ℕ) (s0 : Sect) (pages : List Page) : Except Err (Docx.Doc Par Sp Sect) :=
  match pages.mapM (parsePage c depth) with
  | .error e => .error e
  | .ok ds => .ok (Docx.makeDoc s0 ds)

end Pose
