import Verif.Collection
import Verif.TextSpan
import Verif.Docx
/-! # Storing a parsed layout and restoring it

Models `store`/`restore` (or the constructor taking a raw dict) of `Char` (text/Char.py L21-25, L55-62), `TextSpan`
(text/TextSpan.py L47-64, L183-196), `Image` (image/Image.py L30-43, L65-79), `ImageBlock` (image/ImageBlock.py L19-45, L66-72),
`Line` (text/Line.py L27-53, L122-134), `Lines`, `Spans`, `TextBlock` (text/TextBlock.py L41-52, L82-87), `Block`
(common/Block.py L18-39, L146-162), `Cell` (table/Cell.py L15-25, L75-87), `Cells`, `Row` (table/Row.py L16-25, L48-55), `Rows`,
`TableBlock` (table/TableBlock.py L42-50, L96-101), `Blocks` (page/Blocks.py L87-128), `Layout` (page/Layout.py L51-63) and `Page`
(page/Page.py L111-141).

The stored dict of an object is modelled by a record with one field per key that is written (the JSON text in between is not
modelled: `json` keeps numbers, strings, lists and null; base64 decoding undoes base64 encoding). `rot` is the multiplication of a
box by the global `Element.ROTATION_MATRIX`, `rotDir` that of a direction by its pure rotation. Not modelled: shapes (nothing of
the docx depends on restored shapes), parent pointers and `Line.pid`, `fitz_page`. -/

namespace Store
open Geom Py Text

/-! ## Leaves: characters, spans, images, lines -/

/-- `Char` (text/Char.py L21-25), and its stored dict (L55-62). -/
structure Chr where
  c : Char
  origin : Option (ℚ × ℚ)
  bbox : Rect
  deriving DecidableEq

/-- `TextSpan` (text/TextSpan.py L47-61), and its stored dict (L183-196; the key `text` is not read back). -/
structure Span where
  bbox : Rect
  color : ℤ
  font : List Char
  size : ℚ
  flags : ℕ
  chars : List Chr
  style : List Style
  deriving DecidableEq

/-- `Image` (image/Image.py L30-43) and its stored dict (L65-79). -/
structure Img where
  bbox : Rect
  ext : String
  width : ℚ
  height : ℚ
  image : List ℕ
  deriving DecidableEq

/-- Member of a line: text or image span. -/
inductive Item where
  | text (s : Span)
  | image (i : Img)
  deriving DecidableEq

/-- Box of a span. -/
def Item.bbox : Item → Rect
  | .text s => s.bbox
  | .image i => i.bbox

/-- `Line` (text/Line.py L27-53) and its stored dict (L122-134). -/
structure Line where
  bbox : Rect
  wmode : ℕ
  dir : ℚ × ℚ
  lineBreak : ℕ
  spans : List Item
  deriving DecidableEq

/-- `TextSpan.store`: the font written is the *parsed* name (`self.font`, L187), not the source name. -/
def Span.store (s : Span) : Span := { s with font := fontOf s.font }

/-- `Spans.store`/`Line.store`. -/
def Item.store : Item → Item
  | .text s => .text s.store
  | .image i => .image i

/-- `Line.store`. -/
def Line.store (l : Line) : Line := { l with spans := l.spans.map Item.store }

/-- What restoring depends on: the global rotation, and `TextSpan.set_font` (external: font metrics of PyMuPDF). -/
structure Env where
  rot : Rect → Rect
  rotDir : ℚ × ℚ → ℚ × ℚ
  setFont : Span → Span

/-- `Element.__init__` with a `bbox` (common/Element.py L51-60). -/
def initBox (E : Env) (b : Rect) : Rect := Coll.updateBbox (E.rot b)

/-- `Char(raw)`. -/
def Chr.restore (E : Env) (c : Chr) : Chr := { c with bbox := initBox E c.bbox }

/-- `'UNNAMED' in self.font.upper()` (TextSpan.py L63). -/
def unnamed (font : List Char) : Bool :=
  decide ("UNNAMED".toList <:+: (fontOf font).map Char.toUpper)

/-- `TextSpan(raw)` (L47-64). -/
def Span.restore (E : Env) (s : Span) : Span :=
  let s' : Span := { s with bbox := initBox E s.bbox, chars := s.chars.map (Chr.restore E) }
  if unnamed s'.font then E.setFont s' else s'

/-- `Image(raw)`. -/
def Img.restore (E : Env) (i : Img) : Img := { i with bbox := initBox E i.bbox }

/-- `Spans.restore` (text/Spans.py L13-18): which class. -/
def Item.restore (E : Env) : Item → Item
  | .text s => .text (s.restore E)
  | .image i => .image (i.restore E)

/-- Appending elements one by one to a collection whose parent has the box `b` (`Collection.append`, common/Collection.py
L161-173): an element without a box is skipped. -/
def appendAll {β : Type} (box : β → Rect) (b : Rect) (l : List β) : Rect × List β :=
  l.foldl (fun s e => if (box e).truthy then (Coll.unionBbox s.1 (box e), s.2 ++ [e]) else s) (b, [])

/-- `Line(raw)` (Line.py L27-53): the stored box is dropped and recomputed from the spans. -/
def Line.restore (E : Env) (l : Line) : Line :=
  let r := appendAll Item.bbox Rect.zero (l.spans.map (Item.restore E))
  ⟨r.1, l.wmode, E.rotDir l.dir, l.lineBreak, r.2⟩

/-! ## Blocks -/

/-- Spacing attributes common to all blocks (common/Block.py L22-37). -/
structure Fmt where
  alignment : ℤ := 0
  left : ℚ := 0
  right : ℚ := 0
  firstLine : ℚ := 0
  leftTotal : ℚ := 0
  rightTotal : ℚ := 0
  tabStops : List ℚ := []
  before : ℚ := 0
  after : ℚ := 0
  line : ℚ := 0
  deriving DecidableEq

/-- Values of `TextAlignment` (common/share.py L42-57); `Block._get_alignment` (common/Block.py L92-96) turns any other number
into `LEFT`. -/
def Fmt.restore (f : Fmt) : Fmt :=
  { f with alignment := if -1 ≤ f.alignment ∧ f.alignment ≤ 4 then f.alignment else 1 }

/-- `Cell` (table/Cell.py L15-25) with blocks of type `β`, and its stored dict. -/
structure CellOf (β : Type) where
  bbox : Rect
  bg : Option ℤ
  borderColor : List ℤ
  borderWidth : List ℚ
  merged : ℕ × ℕ
  blocks : List β

/-- `Row` (table/Row.py L16-25) with cells of type `γ`, and its stored dict. -/
structure RowOf (γ : Type) where
  bbox : Rect
  height : ℚ
  cells : List γ

/-- A block of a parsed layout: `TextBlock` (of type TEXT, or IMAGE if `inlineImage`), `TableBlock` (LATTICE_TABLE, or STREAM_TABLE if
`stream`), `ImageBlock` (FLOAT_IMAGE, or IMAGE when not `float`). -/
inductive Block where
  | text (inlineImage : Bool) (bbox : Rect) (fmt : Fmt) (lines : List Line)
  | table (stream : Bool) (bbox : Rect) (fmt : Fmt) (rows : List (RowOf (CellOf Block)))
  | image (float : Bool) (fmt : Fmt) (img : Img)

/-- A stored block: the value of `type`, the box, the spacing, and the keys `lines`, `rows` and those of an image where present.
A merged-away cell is stored as `None` (Cell.py L75-87). -/
inductive Raw where
  | mk (type : ℤ) (bbox : Rect) (fmt : Fmt) (lines : List Line) (rows : List (RowOf (Option (CellOf Raw)))) (img : Option Img)

/-- `Element.bbox` of a block. -/
def Block.bbox : Block → Rect
  | .text _ b _ _ => b
  | .table _ b _ _ => b
  | .image _ _ i => i.bbox

mutual
/-- `TextBlock.store`, `TableBlock.store`, `ImageBlock.store`; the numbers are those of `BlockType` (common/share.py L11-18). -/
def Block.store : Block → Raw
  | .text inl b f lines => .mk (if inl then 1 else 0) b f (lines.map Line.store) [] none
  | .table stream b f rows => .mk (if stream then 3 else 2) b f [] (storeRows rows) none
  | .image float f i => .mk (if float then 4 else 1) i.bbox f [] [] (some i)
/-- `Rows.store`. -/
def storeRows : List (RowOf (CellOf Block)) → List (RowOf (Option (CellOf Raw)))
  | [] => []
  | r :: rs => storeRow r :: storeRows rs
/-- `Row.store`. -/
def storeRow : RowOf (CellOf Block) → RowOf (Option (CellOf Raw))
  | ⟨b, h, cells⟩ => ⟨b, h, storeCells cells⟩
/-- `Cells.store`. -/
def storeCells : List (CellOf Block) → List (Option (CellOf Raw))
  | [] => []
  | c :: cs => storeCell c :: storeCells cs
/-- `Cell.store` (Cell.py L75-87). -/
def storeCell : CellOf Block → Option (CellOf Raw)
  | ⟨b, bg, bc, bw, m, blocks⟩ => if b.truthy then some ⟨b, bg, bc, bw, m, storeBlocks blocks⟩ else none
/-- `Collection.store` (common/Collection.py L143-145) on blocks. -/
def storeBlocks : List Block → List Raw
  | [] => []
  | b :: bs => b.store :: storeBlocks bs
end

/-- `Cell(None)`/`Cell()`. -/
def emptyCell {β : Type} : CellOf β := ⟨Rect.zero, none, [0, 0, 0, 0], [0, 0, 0, 0], (1, 1), []⟩

/-- `TextBlock(raw)` (TextBlock.py L41-52): the stored box is dropped and recomputed from the lines. -/
def restoreText (E : Env) (inl : Bool) (f : Fmt) (lines : List Line) : Block :=
  let r := appendAll Line.bbox Rect.zero (lines.map (Line.restore E))
  .text inl r.1 f.restore r.2

/-- `ImageBlock.to_text_block` (ImageBlock.py L26-45): a block with one line and one image span. -/
def toTextBlock (i : Img) : Block :=
  let sp := appendAll Item.bbox Rect.zero [Item.image { i with bbox := Coll.updateBbox i.bbox }]
  let ln := appendAll Line.bbox Rect.zero [(⟨sp.1, 0, (1, 0), 0, sp.2⟩ : Line)]
  .text true ln.1 {} ln.2

/-- The image read by `ImageBlock(raw)`: defaults where the raw dict has no image keys (Image.py L30-43). -/
def rawImg (E : Env) (b : Rect) : Option Img → Img
  | some i => { i with bbox := initBox E b }
  | none => ⟨initBox E b, "png", 0, 0, []⟩

/-- `Cells.append` (table/Cells.py L23-27): empty cells are kept. -/
def appendCells (b : Rect) (l : List (CellOf Block)) : Rect × List (CellOf Block) :=
  (l.foldl (fun s c => Coll.unionBbox s c.bbox) b, l)

mutual
/-- The branch of `Blocks.restore` for one raw block (Blocks.py L104-125); `none` is the `block = None` of an unknown type. -/
def Raw.restore (E : Env) : Raw → Option Block
  | .mk type b f lines rows img =>
    if type = 1 then some (toTextBlock (rawImg E b img))
    else if type = 0 then some (restoreText E false f lines)
    else if type = 4 then some (.image true f.restore (rawImg E b img))
    else if type = 2 ∨ type = 3 then
      let r := appendAll RowOf.bbox (initBox E b) (restoreRows E rows)
      some (.table false r.1 f.restore r.2)
    else none
/-- `Row(raw)` for each raw row (table/Rows.py L13-25). -/
def restoreRows (E : Env) : List (RowOf (Option (CellOf Raw))) → List (RowOf (CellOf Block))
  | [] => []
  | r :: rs => restoreRow E r :: restoreRows E rs
/-- `Row(raw)` (table/Row.py L16-25). -/
def restoreRow (E : Env) : RowOf (Option (CellOf Raw)) → RowOf (CellOf Block)
  | ⟨b, h, cells⟩ => ⟨(appendCells (initBox E b) (restoreCells E cells)).1, h, (appendCells (initBox E b) (restoreCells E cells)).2⟩
/-- `Cells.restore` (table/Cells.py L12-21). -/
def restoreCells (E : Env) : List (Option (CellOf Raw)) → List (CellOf Block)
  | [] => []
  | c :: cs => restoreCell E c :: restoreCells E cs
/-- `Cell(raw)` (table/Cell.py L15-25). -/
def restoreCell (E : Env) : Option (CellOf Raw) → CellOf Block
  | none => emptyCell
  | some ⟨b, bg, bc, bw, m, blocks⟩ => ⟨initBox E b, bg, bc, bw, m, restoreBlocks E blocks⟩
/-- `Blocks.restore` (Blocks.py L94-128): `append` skips `None` and blocks without a box; a floating image goes into the flow. -/
def restoreBlocks (E : Env) : List Raw → List Block
  | [] => []
  | r :: rs =>
    match r.restore E with
    | some b => if b.bbox.truthy then b :: restoreBlocks E rs else restoreBlocks E rs
    | none => restoreBlocks E rs
end

/-! ## Pages -/

/-- A parsed page as far as the docx is concerned: size, margins, blocks in the flow and floating images
(`Blocks.floating_image_blocks`). -/
structure Page where
  id : ℤ
  width : ℚ
  height : ℚ
  margin : List ℚ
  blocks : List Block
  floats : List (Fmt × Img)

/-- The dict of a stored page. -/
structure RawPage where
  id : ℤ
  width : ℚ
  height : ℚ
  margin : List ℚ
  blocks : List Raw

/-- `Page.store` (Page.py L111-120) with `Blocks.store` (Blocks.py L87-91): floating images follow the blocks in the flow. -/
def Page.store (p : Page) : RawPage :=
  ⟨p.id, p.width, p.height, p.margin, storeBlocks (p.blocks ++ p.floats.map fun x => .image true x.1 x.2)⟩

/-- `Page.restore` (Page.py L123-141) on a page that already holds the floating images `old` (empty for a new page):
`Blocks.reset` does not touch them. -/
def RawPage.restore (E : Env) (old : List (Fmt × Img)) (r : RawPage) : Page :=
  ⟨r.id, r.width, r.height, r.margin, restoreBlocks E r.blocks, old⟩

/-! ## What the docx and the extracted tables are made from -/

/-- Everything written for a paragraph is computed from these (TextBlock.make_docx, Lines.make_docx). -/
structure ParaData where
  bbox : Rect
  fmt : Fmt
  lines : List Line
  deriving DecidableEq

/-- What is written for a span: the source font name is only read through `TextSpan.font`. -/
def ParaData.seen (p : ParaData) : ParaData := { p with lines := p.lines.map Line.store }

mutual
/-- The block as `Docx.lean` renders it. Table and row attributes other than the contents are in `Table.lean`; here they are
recorded by `tableFormat`. -/
def Block.toDocx : Block → Docx.Block ParaData
  | .text _ b f lines => .text (ParaData.seen ⟨b, f, lines⟩)
  | .table _ _ f rows => .table f.before (docxRows rows)
  | .image _ _ _ => .floatImg
def docxRows : List (RowOf (CellOf Block)) → List (List (Option (List (Docx.Block ParaData))))
  | [] => []
  | r :: rs => docxRow r :: docxRows rs
def docxRow : RowOf (CellOf Block) → List (Option (List (Docx.Block ParaData)))
  | ⟨_, _, cells⟩ => docxCells cells
def docxCells : List (CellOf Block) → List (Option (List (Docx.Block ParaData)))
  | [] => []
  | c :: cs => docxCell c :: docxCells cs
def docxCell : CellOf Block → Option (List (Docx.Block ParaData))
  | ⟨b, _, _, _, _, blocks⟩ => if b.truthy then some (docxBlocks blocks) else none
def docxBlocks : List Block → List (Docx.Block ParaData)
  | [] => []
  | b :: bs => b.toDocx :: docxBlocks bs
end

/-- A page as `Docx.lean` renders it. -/
def Page.toDocx (p : Page) : Docx.PageData ParaData Img (ℚ × ℚ × List ℚ) :=
  ⟨(p.width, p.height, p.margin), docxBlocks p.blocks, p.floats.map Prod.snd⟩

/-- Text of a span as `Line.text` sees it (Line.py L56-60, Image.py L45-48). -/
def Item.str (ws : Char → Bool) : Item → List Char
  | .text s => Text.strip ws (s.chars.map Chr.c)
  | .image _ => "<image>".toList

/-- `Line.text` (Line.py L56-60). -/
def Line.text (ws : Char → Bool) (l : Line) : List Char := (l.spans.map (Item.str ws)).flatten

/-- Text of a block as `Cell.text` sees it (Cell.py L29-35): text blocks give their lines (TextBlock.py L55-59), anything else the
placeholder. -/
def Block.cellText (ws : Char → Bool) : Block → List Char
  | .text false _ _ lines => ['\n'].intercalate (lines.map (Line.text ws))
  | _ => "<NEST TABLE>".toList

/-- `Cell.text` (Cell.py L28-35). -/
def cellText (ws : Char → Bool) (c : CellOf Block) : Option (List Char) :=
  if c.bbox.truthy then some (['\n'].intercalate (c.blocks.map (Block.cellText ws))) else none

/-- `TableBlock.text` (TableBlock.py L77-84). -/
def tableText (ws : Char → Bool) (rows : List (RowOf (CellOf Block))) : List (List (Option (List Char))) :=
  rows.map fun r => r.cells.map (cellText ws)

/-- `Page.extract_tables` (Page.py L159-177): all tables with `extract_stream_table`, else the lattice ones. -/
def Page.tables (ws : Char → Bool) (streams : Bool) (p : Page) : List (List (List (Option (List Char)))) :=
  p.blocks.filterMap fun
    | .table stream _ _ rows => if streams || !stream then some (tableText ws rows) else none
    | _ => none

end Store
