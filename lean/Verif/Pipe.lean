import Verif.Layout
import Verif.TextSpan
import Verif.Para
import Verif.Docx
/-! # From the extracted blocks of a page to the document

page/Blocks.py `clean_up` (L129-165), `strip` (L167-171), text/Spans.py `strip` (L37-53), text/Lines.py `strip` (L144-153), followed by the stages modelled
elsewhere: floating images and joining (`Lines.lean`), nested layouts (`Layout.lean`), text styles (`TextSpan.lean`), paragraphs (`Para.lean`), the
docx (`Docx.lean`). What the stages before rendering decide about geometry and styles (which tables are found, which shapes touch which line, indents, tab stops,
breaks, grid of a table) is a parameter. Font and size of a span, which no stage uses to select text, are left out. -/

namespace Pipe
open Geom Py Assign

/-- What a page shows: characters and pictures (with their identity). -/
inductive Tok where
  | chr (c : Char)
  | pic (n : ℕ)
  deriving DecidableEq

/-- A blank character; `ws` is Python's `str.isspace`. -/
def Tok.blank (ws : Char → Bool) : Tok → Bool
  | .chr c => ws c
  | .pic _ => false

/-- A span of the page. -/
abbrev Sp := Span Tok

/-- A block as restored from the extracted page: text, or an image turned into a text block (page/Blocks.py L104-110). -/
abbrev Raw := Lns.Blk Sp

/-! ## Clean-up -/

/-- `TextSpan.lstrip` (text/TextSpan.py L159-168). -/
def lstripSpan (ws : Char → Bool) : Sp → Sp × Bool
  | .text b cs =>
    if (cs.map Prod.snd).take 2 = [.chr ' ', .chr ' '] then
      let num := cs.length - (cs.dropWhile fun c => c.2.blank ws).length
      (.text (Coll.bbox ((cs.drop (num - 1)).map Prod.fst)) (cs.drop (num - 1)), true)
    else (.text b cs, false)
  | s => (s, false)

/-- `TextSpan.rstrip` (text/TextSpan.py L171-180): `chars[:1-num]`. -/
def rstripSpan (ws : Char → Bool) : Sp → Sp × Bool
  | .text b cs =>
    if (cs.map Prod.snd).reverse.take 2 = [.chr ' ', .chr ' '] then
      let num := cs.length - (cs.reverse.dropWhile fun c => c.2.blank ws).length
      (.text (Coll.bbox ((cs.take (cs.length - (num - 1))).map Prod.fst)) (cs.take (cs.length - (num - 1))), true)
    else (.text b cs, false)
  | s => (s, false)

/-- A line with new spans, its box recomputed (text/Spans.py L51). -/
def respan (l : Lay.Ln Tok) (ss : List (Rect × Sp)) : Lay.Ln Tok := { l with bbox := Coll.bbox (ss.map Prod.fst), spans := ss }

/-- `Spans.strip` (text/Spans.py L37-53): the right side is stripped only if the left side was not. -/
def stripLine (ws : Char → Bool) (l : Lay.Ln Tok) : Lay.Ln Tok × Bool :=
  match l.spans with
  | [] => (l, false)
  | s :: ss =>
    if (lstripSpan ws s.2).2 then (respan l (((lstripSpan ws s.2).1.bbox, (lstripSpan ws s.2).1) :: ss), true)
    else
      let last := (s :: ss).getLast (by simp)
      if (rstripSpan ws last.2).2 then (respan l ((s :: ss).dropLast ++ [((rstripSpan ws last.2).1.bbox, (rstripSpan ws last.2).1)]), true)
      else (l, false)

/-- `TextBlock.strip`, `Lines.strip` (text/Lines.py L144-153). -/
def stripBlock (ws : Char → Bool) (b : Raw) : Raw :=
  let ls := b.lines.map (stripLine ws)
  if ls.any Prod.snd then { b with bbox := Coll.bbox ((ls.map Prod.fst).map Lns.Ln.bbox), lines := ls.map Prod.fst }
  else { b with lines := ls.map Prod.fst }

/-- `TextBlock.text_direction` (text/TextBlock.py L62-74). -/
def dir (b : Raw) : Dir := (Lay.Blk.text b.bbox b.lines).dir

/-- The condition of `clean_up` (page/Blocks.py L153-155): on the page, not blank (`block.text.strip()`; an image counts as text `<image>`), and a
supported direction. -/
def keep (ws : Char → Bool) (page : Rect) (b : Raw) : Bool :=
  b.bbox.intersects page && (b.lines.any fun l => l.spans.any fun s => s.2.items.any fun t => !t.blank ws) && decide (dir b ≠ .ignore)

/-- `Collection.sort_in_reading_order` (common/Collection.py L221-229). -/
def sortRaw (bs : List Raw) : List Raw :=
  if Coll.textDirection (bs.map fun b => ⟨b.bbox, dir b⟩) = .leftRight then sortBy (fun b => Coll.key b.bbox.y0 b.bbox.x0 b.bbox.x1) bs
  else sortBy (fun b => Coll.key b.bbox.x0 b.bbox.y1 b.bbox.y0) bs

/-- The settings used. -/
structure Cfg where
  ws : Char → Bool
  gap : ℚ
  ov : ℚ
  mg : ℚ
  lay : Lay.Cfg

/-- `clean_up` up to the search for floating images (page/Blocks.py L150-162): blocks, floating images. -/
def beforeJoin (c : Cfg) (page : Rect) (bs : List Raw) : Except Err (List Raw × List Sp) :=
  Lns.identifyFloats c.gap (sortRaw (((bs.filter (keep c.ws page)).filter fun b => b.bbox.truthy).map (stripBlock c.ws)))

/-- `Blocks.clean_up` (page/Blocks.py L132-165). -/
def cleanUp (c : Cfg) (page : Rect) (bs : List Raw) : Except Err (List Raw × List Sp) :=
  match beforeJoin c page bs with
  | .error e => .error e
  | .ok r =>
    match Lns.joinHorizontally c.lay.iter c.ov c.mg r.1 with
    | .error e => .error e
    | .ok js => .ok (js, r.2)

/-! ## Rendering -/

/-- What a line writes into a paragraph: runs of text and pictures. -/
inductive Word where
  | run (r : Text.Run)
  | pic (n : ℕ)

/-- A paragraph of the docx. -/
abbrev Par := List (Para.Out (List Word))

/-- A text block of the parsed layout. -/
abbrev TBlk := Rect × List (Lay.Ln Tok)

/-- What is decided about a page while it is parsed, apart from the content: shapes applied to a line (with the orientation of its block), indents and tab stops, line
breaks, space above a table, visible positions of the grid of a table. -/
structure Fmt where
  shapes : TBlk → ℕ → Bool × List Text.Shape
  left : TBlk → ℚ
  start : TBlk → ℚ
  stops : TBlk → List ℚ
  ext : TBlk → ℕ → Para.Ext
  brk : TBlk → ℕ → Bool
  same : TBlk → ℕ → Bool
  before : Rect → ℚ
  grid : Rect → ℕ → List (List Bool)

/-- A span as the styles see it. -/
def toItem : Sp → Text.Item
  | .image b (.pic n) => .image b n
  | .image b (.chr _) => .image b 0
  | .text b cs => .text { chars := cs.filterMap fun c => match c.2 with | .chr x => some ⟨x, c.1⟩ | .pic _ => none, bbox := b, style := [] }

/-- `Line.make_docx` (text/Line.py L177-180), `TextSpan.make_docx`, `ImageSpan.make_docx`. -/
def toWord (ws : Char → Bool) : Text.Item → Word
  | .image _ n => .pic n
  | .text s => .run (s.makeDocx ws)

/-- Styles applied to a text block, then its paragraph (`Lines.parse_text_format`, text/Lines.py L260-293; `TextBlock.make_docx`). -/
def paragraph (ws : Char → Bool) (f : Fmt) (t : TBlk) : Par :=
  Para.makeLines (f.left t) (f.start t) (f.stops t) (f.left t) (t.2.zipIdx.map fun l =>
    ⟨f.ext t l.2, (Text.applyShapes (f.shapes t l.2).1 (l.1.spans.map fun s => toItem s.2) (f.shapes t l.2).2).map (toWord ws), f.brk t l.2, f.same t l.2⟩)

/-- The cells of a row: visible positions take the next cell. -/
def placeRow {β : Type} : List Bool → List β → List (Option β)
  | [], _ => []
  | true :: r, c :: cs => some c :: placeRow r cs
  | _ :: r, cs => none :: placeRow r cs

/-- The rows of a table: visible cells are numbered row by row (table/TableBlock.py L126-137). -/
def place {β : Type} : List (List Bool) → List β → List (List (Option β))
  | [], _ => []
  | r :: rs, cs => placeRow r cs :: place rs (cs.drop (r.count true))

mutual
/-- A parsed block as it is rendered. -/
def block (ws : Char → Bool) (f : Fmt) : Lay.Blk Tok → Docx.Block Par
  | .text b ls => .text (paragraph ws f (b, ls))
  | .table b cs => .table (f.before b) (place (f.grid b cs.length) (cells ws f cs))
/-- The cells of a table. -/
def cells (ws : Char → Bool) (f : Fmt) : List (Rect × List (Lay.Blk Tok)) → List (List (Docx.Block Par))
  | [] => []
  | (_, bs) :: cs => blocks ws f bs :: cells ws f cs
/-- A layout. -/
def blocks (ws : Char → Bool) (f : Fmt) : List (Lay.Blk Tok) → List (Docx.Block Par)
  | [] => []
  | b :: bs => block ws f b :: blocks ws f bs
end

/-! ## Pages and documents -/

/-- A page to be converted: its box, its working area (`Page.working_bbox`, page/Page.py L101-106: the box without the margins), section properties, extracted blocks, and what is decided
about it: tables found, `id`s of new blocks, formats. -/
structure Page (π : Type) where
  box : Rect
  work : Rect
  props : π
  raw : List Raw
  detect : Lay.Detect Tok
  ids : Lay.Ids
  fmt : Fmt

variable {π : Type}

/-- A page parsed and ready for rendering: `Page.parse` (page/Page.py L143-156) with at most `depth` nested layouts. -/
def parsePage (c : Cfg) (depth : ℕ) (p : Page π) : Except Err (Docx.PageData Par Sp π) :=
  match cleanUp c p.box p.raw with
  | .error e => .error e
  | .ok r =>
    match Lay.parsePage c.lay p.detect p.ids depth p.work (r.1.map fun b => .text b.bbox b.lines) with
    | .error e => .error e
    | .ok bs => .ok ⟨p.props, blocks c.ws p.fmt bs, r.2⟩

/-- `Converter.convert` on pages that are all parsed (converter.py): the document, on a new one with section properties `p0`. -/
def convert (c : Cfg) (depth : ℕ) (p0 : π) (pages : List (Page π)) : Except Err (Docx.Doc Par Sp π) :=
  match pages.mapM (parsePage c depth) with
  | .error e => .error e
  | .ok ds => .ok (Docx.makeDoc p0 ds)

end Pipe
