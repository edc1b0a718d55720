import Verif.Whole
import Verif.Format
/-! # From the extracted page to the document, text styles included

As `Whole.lean`, but which shapes style which text is computed too: `Layout._parse_text_format` (page/Layout.py L137-149) with the categories of
`Shapes.detect_initial_categories` (shape/Shapes.py L159-206) and the pass of `Format.lean`. Theorem `sy_refines` (Props/Styled.lean): every run is a run of `Full.parse`.

Simplifications: a link area is known by its box, so areas with exactly the same box have the same address. A run of the document is represented by the span it is
written from: `Text.Span.makeDocx` and `Run.format` say what `TextSpan.make_docx` writes for it. Spans have no font here (see `Pipe.lean`). -/

namespace Deco
open Geom Py Pipe

/-! ## The shapes that may style text -/

/-- `text_underlines_strikes` (shape/Shapes.py L181-203): every stroke, whether it is within a line of text or not. -/
def lines (shapes : List Full.Sh) : List Full.Sh := shapes.filter fun | .stroke _ => true | _ => false

/-- `text_highlights` (shape/Shapes.py L204-206): fills that are not table shadings. -/
def highlights (tbs : List Shapes.TB) (shapes : List Full.Sh) : List Full.Sh :=
  shapes.filter fun | .fill b c => (Full.shadingOf tbs (.fill b c)).isNone | _ => false

/-- `hyperlinks` (shape/Shapes.py L73-78): computed when first asked for, that is, after tables took their shapes. -/
def links (shapes : List Full.Sh) : List Full.Sh := shapes.filter fun | .link _ => true | _ => false

/-- `text_shapes` (page/Layout.py L140-145) of a layout; `before` and `after` tables were taken out. -/
def candidates (before after : Full.State Tok) : List Full.Sh :=
  lines before.sub.shapes ++ highlights (Full.textBlocks before.blocks) before.sub.shapes ++ links after.sub.shapes

/-- `shape.type`. A shape that styled text in an outer layout has one of the three text styles; which of them makes no difference. -/
def typeOf (ty : Full.Types) : Full.Sh → Text.RType
  | .link _ => .hyperlink
  | .stroke s => if Full.Sh.stroke s ∈ ty.done then .border else if Full.Sh.stroke s ∈ ty.styled then .underline else .undefined
  | .fill b c => if Full.Sh.fill b c ∈ ty.done then .shading else if Full.Sh.fill b c ∈ ty.styled then .highlight else .undefined

/-- `shape.color`. -/
def colorOf : Full.Sh → ℤ
  | .link _ => 0
  | .stroke s => s.color
  | .fill _ c => c

/-- The shape as text styling sees it; `uri` are the addresses of link areas. -/
def shape (uri : Rect → String) (ty : Full.Types) (s : Full.Sh) : Text.Shape := ⟨s.bbox, colorOf s, typeOf ty s, uri s.bbox⟩

/-- A line as text styling sees it (`line.is_horizontal_text`, common/share.py L67-70). -/
def line (l : Lay.Ln Tok) : Styl.TLine := ⟨l.bbox, decide (l.dir = .leftRight), l.spans.map fun s => toItem s.2⟩

/-- The text blocks of a layout. -/
def texts : List (Full.Blk Tok) → List Styl.TBlock
  | [] => []
  | .text b ls :: bs => ⟨b, ls.map line⟩ :: texts bs
  | .table _ _ _ :: bs => texts bs

/-- The pass over a layout (page/Layout.py L140-146). -/
def pass (uri : Rect → String) (before after : Full.State Tok) (bs : List (Full.Blk Tok)) : List Text.Shape × List Styl.TBlock :=
  Styl.blocksFormat ((candidates before after).map (shape uri after.types)) (texts bs)

/-- The shapes that turn out to style text of the layout. -/
def format (uri : Rect → String) : Full.Format Tok := fun _ before after bs =>
  ((candidates before after).zip (pass uri before after bs).1).filterMap fun x =>
    if typeOf after.types x.1 = .undefined ∧ x.2.type ≠ .undefined then some x.1 else none

/-! ## The layout with styled text -/

/-- A block of the parsed layout: text with its styled lines, or a table. -/
inductive Blk where
  | text (bbox : Rect) (lines : List (Lay.Ln Tok)) (styled : Styl.TBlock)
  | table (bbox : Rect) (rows : List (List Bool)) (cells : List (Full.Cell × List Blk))

/-- `TableBlock.parse` (table/TableBlock.py L126-137), as `Full.parseCells`. -/
def parseCells (sub : ℕ → Full.Types → Full.Cell → List (Full.Blk Tok) → Except Err (List Blk × Full.Types)) :
    ℕ → Full.Types → List (Full.Cell × List (Full.Blk Tok)) → Except Err (List (Full.Cell × List Blk) × Full.Types)
  | _, ty, [] => .ok ([], ty)
  | i, ty, c :: cs =>
    match sub i ty c.1 c.2 with
    | .error e => .error e
    | .ok r =>
      match parseCells sub (i + 1) r.2 cs with
      | .error e => .error e
      | .ok q => .ok ((c.1, r.1) :: q.1, q.2)

/-- The loop over the table blocks (page/Layout.py L83-85), as `Full.parseTables`; text blocks take their styled lines from the list. -/
def parseTables (sub : ℕ → ℕ → Full.Types → Full.Cell → List (Full.Blk Tok) → Except Err (List Blk × Full.Types)) :
    ℕ → Full.Types → List Styl.TBlock → List (Full.Blk Tok) → Except Err (List Blk × Full.Types)
  | _, ty, _, [] => .ok ([], ty)
  | i, ty, ts, .text b ls :: bs =>
    match parseTables sub (i + 1) ty ts.tail bs with
    | .error e => .error e
    | .ok r => .ok (.text b ls (ts.headD ⟨b, []⟩) :: r.1, r.2)
  | i, ty, ts, .table b g cs :: bs =>
    match parseCells (sub i) 0 ty cs with
    | .error e => .error e
    | .ok q =>
      match parseTables sub (i + 1) q.2 ts bs with
      | .error e => .error e
      | .ok r => .ok (.table b g q.1 :: r.1, r.2)

/-- `Layout.parse` (page/Layout.py L67-85), as `Full.parse`, with its text styled. -/
def parse (c : Full.Cfg) (uri : Rect → String) (nid : Lay.Ids) : ℕ → List ℕ → Rect → List ℕ → Full.State Tok → Except Err (List Blk × Full.Types)
  | 0, _, _, _, _ => .error (.exn "RecursionError")
  | depth + 1, path, box, ss, st =>
    match Full.stages c nid path box ss st with
    | .error e => .error e
    | .ok st' =>
      match Full.splitBack c.base.lay st'.blocks with
      | .error e => .error e
      | .ok bs =>
        parseTables (fun i j ty cell sub => parse c uri nid depth (path ++ [i, j]) cell.info.working [1, 2] ⟨sub, cell.sub, ty⟩) 0
          ⟨st'.types.done, st'.types.styled ++ format uri path st st' bs⟩ (pass uri st st' bs).2 bs

/-- The layout of a page, as `Full.parsePage`. -/
def layout (c : Full.Cfg) (uri : Rect → String) (nid : Lay.Ids) (depth : ℕ) (page : Rect) (shapes : List Full.Sh) (bs : List (Full.Blk Tok)) :
    Except Err (List Blk × Full.Types) :=
  parse c uri nid depth [] page [0, 1, 2] ⟨Full.sortBlocks bs, Full.mkSub (Full.sortBlocks bs) shapes, ⟨[], []⟩⟩

/-! ## Forgetting the styles -/

mutual
/-- The block without styles. -/
def Blk.plain : Blk → Full.Blk Tok
  | .text b ls _ => .text b ls
  | .table b g cs => .table b g (plainCells cs)
def plainCells : List (Full.Cell × List Blk) → List (Full.Cell × List (Full.Blk Tok))
  | [] => []
  | (c, bs) :: cs => (c, plain bs) :: plainCells cs
/-- A layout without styles. -/
def plain : List Blk → List (Full.Blk Tok)
  | [] => []
  | b :: bs => b.plain :: plain bs
end

/-! ## Rendering -/

/-- A paragraph of the docx: runs and pictures, represented by the spans they are written from. -/
abbrev Par := List (Para.Out (List Text.Item))

/-- As `Pipe.paragraph`, with styles computed; `f.shapes` is not used. -/
def paragraph (f : Fmt) (t : TBlk) (s : Styl.TBlock) : Par :=
  Para.makeLines (f.left t) (f.start t) (f.stops t) (f.left t) (s.lines.zipIdx.map fun l => ⟨f.ext t l.2, l.1.items, f.brk t l.2, f.same t l.2⟩)

mutual
/-- A parsed block as it is rendered (page/Blocks.py L507-535, table/TableBlock.py L155-166). -/
def block (f : Fmt) : Blk → Docx.Block Par
  | .text b ls s => .text (paragraph f (b, ls) s)
  | .table b g cs => .table (f.before b) (place g (cells f cs))
/-- The cells of a table (table/Row.py L57-77, table/Cell.py L144-178). -/
def cells (f : Fmt) : List (Full.Cell × List Blk) → List (List (Docx.Block Par))
  | [] => []
  | (_, bs) :: cs => blocks f bs :: cells f cs
/-- A layout. -/
def blocks (f : Fmt) : List Blk → List (Docx.Block Par)
  | [] => []
  | b :: bs => block f b :: blocks f bs
end

/-- A page to be converted: its box, section properties, extracted blocks, its shapes after `Shapes.clean_up`, addresses of link areas, identities of new blocks, formats (of which `shapes` and
`grid` are not used). -/
structure Page (π : Type) where
  box : Rect
  work : Rect
  props : π
  raw : List Raw
  shapes : List Full.Sh
  uri : Rect → String
  ids : Lay.Ids
  fmt : Fmt

variable {π : Type}

/-- The page as `Whole.lean` sees it. -/
def Page.whole (p : Page π) : Whole.Page π := ⟨p.box, p.work, p.props, p.raw, p.shapes, p.ids, format p.uri, p.fmt⟩

/-- A page parsed and ready for rendering: `Page.parse` (page/Page.py L143-156) with at most `depth` nested layouts. -/
def parsePage (c : Whole.Cfg) (depth : ℕ) (p : Page π) : Except Err (Docx.PageData Par Sp π) :=
  match cleanUp c.pipe p.box p.raw with
  | .error e => .error e
  | .ok r =>
    match layout c.full p.uri p.ids depth p.work p.shapes (r.1.map fun b => .text b.bbox b.lines) with
    | .error e => .error e
    | .ok bs => .ok ⟨p.props, blocks p.fmt bs.1, r.2⟩

/-- `Converter.convert` on pages that are all parsed (converter.py): the document, on a new one with section properties `p0`. -/
def convert (c : Whole.Cfg) (depth : ℕ) (p0 : π) (pages : List (Page π)) : Except Err (Docx.Doc Par Sp π) :=
  match pages.mapM (parsePage c depth) with
  | .error e => .error e
  | .ok ds => .ok (Docx.makeDoc p0 ds)

end Deco
