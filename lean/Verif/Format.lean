import Verif.TextSpan
/-!
# Model of the text-format pass over blocks, lines and spans

`text/Lines.py` L260-294, `text/TextBlock.py` L126-148, `page/Blocks.py` L490-498, `page/Layout.py` L140-147: which style (underline,
strike-through, highlight, hyperlink) every piece of text gets from the shapes drawn on the page.

Only text blocks are kept in the model of `Blocks` (the pass filters them). The shapes are mutable objects shared by all blocks: the type a shape
gets in one line is seen by the following lines and blocks, so it is threaded through.
-/

namespace Styl
open Geom Py Text

/-- `MAJOR_DIST` (common/constants.py L10). -/
def majorDist : ℚ := 5

/-- `Line` as far as text styling sees it (text/Line.py L31-51). -/
structure TLine where
  bbox : Rect
  horizontal : Bool
  items : List Item
  deriving DecidableEq

/-- `TextBlock` as far as text styling sees it (text/TextBlock.py L60-90). -/
structure TBlock where
  bbox : Rect
  lines : List TLine
  deriving DecidableEq

/-- `line.spans.reset(split_spans)` (text/Lines.py L292; common/Collection.py L181-192): the line's box is united with that of every entry
(`Element.union_bbox`, common/Element.py L118-127). -/
def resetSpans (l : TLine) (items : List Item) : TLine :=
  ⟨items.foldl (fun b i => (b.union i.bbox).round) l.bbox, l.horizontal, items⟩

/-- `Lines.parse_text_format` (text/Lines.py L260-294): one shape on the lines of one block; the second component is the shape with its new
type. The returned flag is not used by any caller. -/
def linesFormat (r : Shape) : List TLine → List TLine × Shape
  | [] => ([], r)
  | l :: ls =>
    if (r.bbox.inter (l.bbox.expand majorDist majorDist)).truthy = false then
      if r.bbox.y1 < l.bbox.y0 then (l :: ls, r)
      else (l :: (linesFormat r ls).1, (linesFormat r ls).2)
    else
      let x := applyShape r l.horizontal l.items
      let y := linesFormat { r with type := x.2 } ls
      (resetSpans l x.1 :: y.1, y.2)

/-- `TextBlock.parse_text_format` (text/TextBlock.py L126-148): all shapes on one block. A shape whose type is already known is left out, unless
it is a hyperlink. -/
def blockFormat : List Shape → TBlock → List Shape × TBlock
  | [], b => ([], b)
  | r :: rs, b =>
    if (r.type ≠ .hyperlink ∧ r.type ≠ .undefined) ∨ b.bbox.intersects r.bbox = false then
      (r :: (blockFormat rs b).1, (blockFormat rs b).2)
    else
      let x := linesFormat r b.lines
      let y := blockFormat rs ⟨b.bbox, x.1⟩
      (x.2 :: y.1, y.2)

/-- `Blocks.parse_text_format` (page/Blocks.py L490-498) for the text blocks of a page or cell. -/
def blocksFormat : List Shape → List TBlock → List Shape × List TBlock
  | rs, [] => (rs, [])
  | rs, b :: bs =>
    let x := blockFormat rs b
    let y := blocksFormat x.1 bs
    (y.1, x.2 :: y.2)

/-- The shapes in the order `Layout._parse_text_format` passes them (page/Layout.py L140-147): potential underlines and strike-through lines,
then potential highlights, then hyperlinks. -/
def styleShapes (lines highlights links : List Shape) : List Shape := lines ++ highlights ++ links

end Styl
