import Verif.Whole
import Verif.Path
import Verif.Sweep
/-! # From the drawing commands of a page to the document

The shapes of `Whole.Page` computed from what `page.getDrawings()` and `page.getLinks()` deliver: `RawPage._preprocess_shapes` (page/RawPage.py L126-171), `Shapes.restore`
(shape/Shapes.py L28-42) and `Shapes.clean_up` (L103-154), the latter on strokes with their centre lines (`Shapes.cleanUp` sees boxes only; theorem `dr_clean_refines`).

Simplified: pictures of vector graphics (`extract_vector_graphics`) are given with the page; they are added if there are such graphics. The page box is `(0, 0, width, height)`. -/

namespace Draw
open Geom Py Full

/-- `Path.bbox` (shape/Path.py L213-223): the boxes of the parts joined, those without area widened by the line width. -/
def pathBox (p : Path.Raw) : Rect :=
  p.subpaths.foldl (fun b s => b.union (if (Path.bboxArea s).1.area = 0 then (Path.bboxArea s).1.expand p.width p.width else (Path.bboxArea s).1)) Rect.zero

/-- `Paths.restore` (shape/Paths.py L22-31). -/
def restore (page : Rect) (ps : List Path.Raw) : List Path.Raw := ps.filter fun p => (pathBox p).intersects page

/-- `Paths.to_shapes` (shape/Paths.py L93-114): paths grouped by connectivity with tolerance 0.1; shapes, and whether there are vector graphics. -/
def toShapes (ratio : ℚ) (ps : List Path.Raw) : Except Err (List Path.RawShape × Bool) :=
  match Sweep.groupIdx (1 / 10) (1 / 10) (ps.map pathBox) with
  | .error e => .error e
  | .ok gs => .ok (Path.toShapes ratio (gs.map fun g => g.filterMap fun i => ps[i]?))

/-- `Stroke.__init__`, `Fill.__init__` (shape/Shape.py L56-72, L128-142). -/
def ofRaw : Path.RawShape → Sh
  | .stroke s => .stroke ⟨(Path.Stroke.ofRaw s).start.x, (Path.Stroke.ofRaw s).start.y, (Path.Stroke.ofRaw s).stop.x, (Path.Stroke.ofRaw s).stop.y, (Path.Stroke.ofRaw s).bbox, s.width, s.color⟩
  | .fill b c => .fill b.round c

/-- `Stroke.update_bbox` (shape/Shape.py L164-200), `Element.update_bbox` (common/Element.py L107-115). -/
def update (r : Rect) : Sh → Sh
  | .stroke s =>
    if r.area = 0 then .stroke ⟨r.x0, r.y0, r.x1, r.y1, (r.expand (s.width / 2) (s.width / 2)).round, s.width, s.color⟩
    else if r.height ≤ r.width then .stroke ⟨r.x0, (r.y0 + r.y1) / 2, r.x1, (r.y0 + r.y1) / 2, r.round, s.width, s.color⟩
    else .stroke ⟨(r.x0 + r.x1) / 2, r.y0, (r.x0 + r.x1) / 2, r.y1, r.round, s.width, s.color⟩
  | .fill _ c => .fill r.round c
  | .link _ => .link r.round

/-- `shape.color`; a hyperlink has colour 0 (shape/Shape.py L59). -/
def color : Sh → ℕ
  | .stroke s => s.color
  | .fill _ c => c
  | .link _ => 0

/-- `shape.type == RectType.HYPERLINK`. -/
def isLink : Sh → Bool
  | .link _ => true
  | _ => false

/-- The inner loop of the merge (shape/Shapes.py L130-144), as `Shapes.place`. -/
def place (threshold : ℚ) (s : Sh) : List Sh → List Sh
  | [] => [s]
  | r :: rs =>
    if color r ≠ color s then r :: place threshold s rs
    else if isLink s ∨ isLink r then r :: place threshold s rs
    else
      match El.mainBbox s.bbox r.bbox threshold with
      | some b => if b.truthy then update b r :: rs else r :: place threshold s rs
      | none => r :: place threshold s rs

/-- `Fill.to_stroke` (shape/Shape.py L254-273) for fills not wider than a border (shape/Shapes.py L147-154). -/
def convert (maxBorder : ℚ) : Sh → Sh
  | .fill b c =>
    if maxBorder < min b.width b.height then .fill b c
    else
      let t := update b (.stroke ⟨0, 0, 0, 0, Rect.zero, min b.width b.height, c⟩)
      if t.bbox.truthy then t else .fill b c
  | s => s

/-- On the page and not too small (shape/Shapes.py L123-127). -/
def eligible (page : Rect) (minDim : ℚ) (s : Sh) : Bool :=
  s.bbox.intersects page && (decide (minDim ≤ s.bbox.width) || decide (minDim ≤ s.bbox.height))

/-- `Shapes.clean_up` (shape/Shapes.py L103-154), as `Shapes.cleanUp`. -/
def cleanUp (page : Rect) (maxBorder threshold minDim : ℚ) (shapes : List Sh) : List Sh :=
  let sorted := sortBy (fun s : Sh => Coll.key s.bbox.y0 s.bbox.x0 s.bbox.x1) shapes
  let unique := (sorted.filter (eligible page minDim)).foldl (fun us s => place threshold s us) []
  (unique.map (convert maxBorder)).filter fun s => s.bbox.truthy

/-- The settings used: `curve_path_ratio`, `shape_merging_threshold`, `shape_min_dimension`. -/
structure Cfg where
  whole : Whole.Cfg
  ratio : ℚ
  threshold : ℚ
  minDim : ℚ

/-- A page: box, section properties, extracted blocks, drawings, areas of links to web addresses, pictures of vector graphics, and the rest as in `Whole.Page`. -/
structure Page (π : Type) where
  box : Rect
  work : Rect
  props : π
  raw : List Pipe.Raw
  drawings : List Path.Raw
  links : List Rect
  graphics : List Pipe.Raw
  ids : Lay.Ids
  styled : Full.Format Pipe.Tok
  fmt : Pipe.Fmt

variable {π : Type}

/-- Shapes of a page, and whether there are vector graphics: `_preprocess_shapes` (page/RawPage.py L126-171), `Shapes.restore` (shape/Shapes.py L28-42; shapes without box are dropped,
common/Collection.py L161-164), `Shapes.clean_up` (page/Layout.py L105-107). -/
def shapes (c : Cfg) (p : Page π) : Except Err (List Sh × Bool) :=
  match toShapes c.ratio (restore p.box p.drawings) with
  | .error e => .error e
  | .ok r => .ok (cleanUp p.box c.whole.full.base.maxW c.threshold c.minDim
      (((r.1.map ofRaw) ++ p.links.map fun l => Sh.link l.round).filter fun s => s.bbox.truthy), r.2)

/-- The page as it is parsed: shapes, and pictures of vector graphics if there are any (page/RawPage.py L137-143). -/
def page (c : Cfg) (p : Page π) : Except Err (Whole.Page π) :=
  match shapes c p with
  | .error e => .error e
  | .ok s => .ok ⟨p.box, p.work, p.props, p.raw ++ (if s.2 then p.graphics else []), s.1, p.ids, p.styled, p.fmt⟩

/-- From the drawings to the document, as `Whole.convert`. -/
def convertDoc (c : Cfg) (depth : ℕ) (p0 : π) (pages : List (Page π)) : Except Err (Docx.Doc Pipe.Par Pipe.Sp π) :=
  match pages.mapM (page c) with
  | .error e => .error e
  | .ok ps => Whole.convert c.whole depth p0 ps

end Draw
