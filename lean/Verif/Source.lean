import Verif.Num
import Verif.Geom
import Verif.Py
/-! # Reading the source page: excluded areas, hidden text, unnamed fonts

`image/ImagesExtractor.py` L105-125 and L167-205, `page/RawPage.py` L44-71, `text/TextSpan.py` L104-150. PyMuPDF and OpenCV are outside the model. -/

namespace Source
open Py Geom

/-! ## Areas excluded when looking for vector graphics -/

/-- The grey picture of a page: number of rows and columns, grey value of each pixel (255 is white). -/
structure Gray where
  rows : ℕ
  cols : ℕ
  at_ : ℕ → ℕ → ℕ

/-- Start or end of a numpy slice of `n` elements: negative numbers count from the end. -/
def bound (n : ℕ) (a : ℤ) : ℤ := if a < 0 then max (a + n) 0 else min a n

/-- Is position `i` in the slice `a:b` of `n` elements? -/
def inSlice (n : ℕ) (a b : ℤ) (i : ℕ) : Bool := decide (bound n a ≤ i ∧ (i : ℤ) < bound n b)

/-- Pixel (row `i`, column `j`) is in `gray[y0-2:y1+2, x0-2:x1+2]` for the box (ImagesExtractor.py L117-118); `int` cuts off the decimals. -/
def inArea (g : Gray) (b : Rect) (i j : ℕ) : Bool :=
  inSlice g.rows (trunc b.y0 - 2) (trunc b.y1 + 2) i && inSlice g.cols (trunc b.x0 - 2) (trunc b.x1 + 2) j

/-- One area made white (ImagesExtractor.py L118). -/
def blank (g : Gray) (b : Rect) : Gray := { g with at_ := fun i j => if inArea g b i j then 255 else g.at_ i j }

/-- All excluded areas (ImagesExtractor.py L116-118). -/
def exclude (g : Gray) (areas : List Rect) : Gray := areas.foldl blank g

/-! ## Hiding the text before clipping the page -/

/-- `stream.replace(ab, new)` for a pattern of two bytes. -/
def replace2 (a b : Char) (new : List Char) : List Char → List Char
  | [] => []
  | [x] => [x]
  | x :: y :: l => if x = a ∧ y = b then new ++ replace2 a b new l else x :: replace2 a b new (y :: l)

/-- `_hide_page_text` on one stream (ImagesExtractor.py L178-182). -/
def hide (s : List Char) : List Char :=
  replace2 'T' 'd' "Td 3 Tr".toList (replace2 'T' 'm' "Tm 3 Tr".toList (replace2 'B' 'T' "BT 3 Tr".toList s))

/-- A document as far as it matters here: the content streams by number, and the numbers of the streams of each page (`page.get_contents()`). -/
structure Doc where
  stream : ℕ → List Char
  page : ℕ → List ℕ

/-- `doc.updateStream` for all streams of the page (ImagesExtractor.py L177-183). -/
def hidePage (d : Doc) (p : ℕ) : Doc :=
  (d.page p).foldl (fun d x => { d with stream := Function.update d.stream x (hide (d.stream x)) }) d

/-- Reading a page (page/RawPage.py L44-71): the source of its text first (`getText`), then its text is hidden once for each clip (`clips`: one for each image without
colour space, ImagesExtractor.py L62, and one if there are vector graphics, L111). -/
def readPage (d : Doc) (p : ℕ) (clips : ℕ) : List (List Char) × Doc :=
  ((d.page p).map d.stream, (fun d => hidePage d p)^[clips] d)

/-- Reading pages one after the other, each with a number of clips. -/
def readPages : Doc → List (ℕ × ℕ) → List (List (List Char))
  | _, [] => []
  | d, r :: rs => (readPage d r.1 r.2).1 :: readPages (readPage d r.1 r.2).2 rs

/-! ## Spans with an unnamed font -/

/-- What `set_font` changes: box, font size, boxes of the characters. -/
structure Span where
  bbox : Rect
  size : ℚ
  chars : List Rect
  deriving DecidableEq

/-- New font size (text/TextSpan.py L126-128); the length of the text is `unit * size` for any size. -/
def newSize (unit : ℚ) (s : Span) : ℚ :=
  if unit * s.size > s.bbox.x1 - s.bbox.x0 then s.size * ((s.bbox.x1 - s.bbox.x0) / (unit * s.size)) else s.size

/-- `TextSpan.set_font` (text/TextSpan.py L104-150), called for fonts whose name contains UNNAMED (L63): `writer size` is the area reported by `TextWriter.append`
for the text at this size. `update_bbox` rounds. `self.chars[0]` (L134) fails without characters. -/
def setFont (unit : ℚ) (writer : ℚ → Rect) (s : Span) : Except Err Span :=
  match s.chars with
  | [] => .error .index
  | _ :: _ =>
    let n := newSize unit s
    let r := writer n
    let buff := (r.y1 - r.y0 - n) / 2
    .ok ⟨(⟨s.bbox.x0, r.y0 + buff, s.bbox.x1, r.y1 - buff⟩ : Rect).round, n,
      s.chars.map fun c => (⟨c.x0, r.y0 + buff, c.x1, r.y1 - buff⟩ : Rect).round⟩

end Source
