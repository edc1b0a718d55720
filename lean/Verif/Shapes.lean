import Verif.Collection
/-! # Model of `shape/Shapes.py` (clean-up, categories, assignment to tables) and `shape/Shape.py` (types)

A shape is a stroke, a fill or a hyperlink (class and `type == RectType.HYPERLINK` coincide, see page/RawPage.py). `tag` stands for
everything else that is attached to a shape (uri, identity). -/

namespace Shapes
open Py Geom

inductive Kind where
  | stroke | fill | link
  deriving DecidableEq, Repr

structure Shp where
  kind : Kind
  color : ℕ
  bbox : Rect
  width : ℚ
  tag : ℕ
  deriving DecidableEq, Repr

/-- `Element.update_bbox` (common/Element.py L107-115), overridden by `Stroke.update_bbox` (Shape.py L164-200): a stroke given an
empty rectangle is widened by its line width. -/
def Shp.update (s : Shp) (r : Rect) : Shp :=
  if s.kind = .stroke ∧ r.area = 0 then { s with bbox := (r.expand (s.width / 2) (s.width / 2)).round }
  else { s with bbox := r.round }

/-- `Fill.to_stroke` (Shape.py L254-273). -/
def Shp.toStroke (s : Shp) (maxBorder : ℚ) : Option Shp :=
  let w := min s.bbox.width s.bbox.height
  if maxBorder < w then none else some ((⟨.stroke, s.color, Rect.zero, w, s.tag⟩ : Shp).update s.bbox)

/-- Not out of the page and not too small (Shapes.py L123-127). -/
def eligible (page : Rect) (minDim : ℚ) (s : Shp) : Bool :=
  s.bbox.intersects page && (decide (minDim ≤ s.bbox.width) || decide (minDim ≤ s.bbox.height))

/-- The inner loop of the merge (Shapes.py L130-144): put `s` into the list of unique shapes. -/
def place (threshold : ℚ) (s : Shp) : List Shp → List Shp
  | [] => [s]
  | r :: rs =>
    if r.color ≠ s.color then r :: place threshold s rs
    else if s.kind = .link ∨ r.kind = .link then r :: place threshold s rs
    else
      match El.mainBbox s.bbox r.bbox threshold with
      | some b => if b.truthy then r.update b :: rs else r :: place threshold s rs
      | none => r :: place threshold s rs

/-- Convert fills that look like strokes (Shapes.py L147-154). -/
def convert (maxBorder : ℚ) (s : Shp) : Shp :=
  if s.kind = .fill then
    match s.toStroke maxBorder with
    | some t => if t.bbox.truthy then t else s
    | none => s
  else s

/-- `Shapes.clean_up` (Shapes.py L103-154). Shapes are sorted like horizontal text (they have no text direction of their own). -/
def cleanUp (page : Rect) (maxBorder threshold minDim : ℚ) (shapes : List Shp) : List Shp :=
  let sorted := sortBy (fun s : Shp => Coll.key s.bbox.y0 s.bbox.x0 s.bbox.x1) shapes
  let unique := (sorted.filter (eligible page minDim)).foldl (fun us s => place threshold s us) []
  (unique.map (convert maxBorder)).filter fun s => s.bbox.truthy

/-! ## Categories -/

/-- A text block as the classification sees it. -/
structure TB where
  bbox : Rect
  lines : List Rect
  deriving DecidableEq

/-- `Element.contains` for boxes. -/
def containsBox (a b : Rect) (t : ℚ) : Bool := El.contains ⟨a, .leftRight⟩ ⟨b, .leftRight⟩ t

/-- `_check_semantic_type` of `Stroke` and `Fill` (Shape.py L203-228, L276-298): determined by this block? -/
def check (s : Shp) (b : TB) : Bool :=
  match s.kind with
  | .stroke => containsBox b.bbox s.bbox 1 && b.lines.any fun l => containsBox l s.bbox 1
  | .fill => containsBox s.bbox b.bbox (3 / 4) || b.lines.any fun l => containsBox s.bbox l (3 / 4)
  | .link => false

/-- `Shape.semantic_type` (Shape.py L86-108): is the type determined by some block (underline/strike for a stroke, shading for a
fill)? -/
def determined (s : Shp) : List TB → Bool
  | [] => false
  | b :: bs =>
    if b.bbox.y1 < s.bbox.y0 then determined s bs
    else if check s b then true
    else if s.bbox.y1 < b.bbox.y0 then false
    else determined s bs

/-- The four groups. -/
structure Cats where
  tableStrokes : List Shp
  tableFillings : List Shp
  underlines : List Shp
  highlights : List Shp
  deriving DecidableEq

/-- `Collection.append` drops elements without box (common/Collection.py L161-164). -/
def push (l : List Shp) (s : Shp) : List Shp := if s.bbox.truthy then l ++ [s] else l

/-- One step of the loop of `Shapes.detect_initial_categories` (Shapes.py L176-207). -/
def catStep (blocks : List TB) (c : Cats) (s : Shp) : Cats :=
  if s.kind = .link then c
  else if determined s blocks then
    if s.kind = .stroke then { c with underlines := push c.underlines s }
    else { c with tableFillings := push c.tableFillings s }
  else if s.kind = .stroke then { c with tableStrokes := push c.tableStrokes s, underlines := push c.underlines s }
  else { c with highlights := push c.highlights s }

/-- `Shapes.detect_initial_categories` (Shapes.py L157-207); `blocks` are the text blocks in the order of `sort_in_reading_order`. -/
def categories (blocks : List TB) (shapes : List Shp) : Cats := shapes.foldl (catStep blocks) ⟨[], [], [], []⟩

end Shapes
