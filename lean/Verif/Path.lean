import Verif.Py
import Verif.Geom
/-! # Model of the vector graphics paths: `shape/Path.py`, `shape/Paths.py` and the construction of strokes and fills

Raw drawings come from `page.getDrawings()`: items are lines, curves and rectangles. Items of other kinds are ignored by
`_group_segments` and are left out here. Colours are numbers (`rgb_value` is modelled in `Color.lean`). -/

namespace Path
open Py Geom

/-- `fitz.Point`. -/
structure Pt where
  x : ℚ
  y : ℚ
  deriving DecidableEq, Repr

/-- An item of a drawing (Path.py L14-18): `("l", p1, p2)`, `("c", p1, p2, p3, p4)`, `("re", rect)`. -/
inductive Item where
  | l (p q : Pt)
  | c (p q r s : Pt)
  | re (r : Rect)
  deriving DecidableEq, Repr

/-- First and last point of a line or curve: `item[1]`, `item[-1]` (Path.py L241). -/
def Item.ends : Item → Option (Pt × Pt)
  | .l p q => some (p, q)
  | .c p _ _ s => some (p, s)
  | .re _ => none

/-- The loop of `Path._group_segments` (Path.py L226-268): `segments` and `cursor` are the loop variables; groups appended to
`segments_list` come out in order. -/
def groupLoop (segments : List Item) (cursor : Option Pt) : List Item → List (List Item)
  | [] => if segments ≠ [] then [segments] else []
  | it :: items =>
    match it.ends with
    | some (s, e) =>
      if segments = [] ∨ some s = cursor then groupLoop (segments ++ [it]) (some e) items
      else segments :: groupLoop [it] (some e) items
    | none =>
      (if segments ≠ [] then [segments] else []) ++ [it] :: groupLoop [] cursor items

/-- `Path._group_segments`. -/
def groupSegments (items : List Item) : List (List Item) := groupLoop [] none items

/-- `Segments.__init__` (Path.py L109-122): the closing line is added to two or more items. (A group with two or more items consists
of lines and curves.) -/
def segments (items : List Item) (close : Bool) : List Item :=
  items ++ (if close ∧ 2 ≤ items.length then
    match items.getLast?.bind Item.ends, items.head?.bind Item.ends with
    | some (_, e), some (s, _) => [.l e s]
    | _, _ => [] else [])

/-- `segment.points` (Path.py L33-34). -/
def Item.points : Item → List Pt
  | .l p q => [p, q]
  | .c p q r s => [p, q, r, s]
  | .re _ => []

/-- `round(x, 2)`. -/
def round2 (x : ℚ) : ℚ := (roundHE (100 * x) : ℚ) / 100

/-- `min(l)`, `max(l)` of a list with default. -/
def minL : List ℚ → ℚ
  | [] => 0
  | x :: xs => xs.foldl min x
def maxL : List ℚ → ℚ
  | [] => 0
  | x :: xs => xs.foldl max x

/-- Sum of `x0*y1 - x1*y0` over consecutive points (Path.py L165-168). -/
def shoelace : List Pt → ℚ
  | p :: q :: l => (p.x * q.y - q.x * p.y) + shoelace (q :: l)
  | _ => 0

/-- `abs(dx)+abs(dy) < 1e-3` for the first and last point (Path.py L163-164). -/
def closed (pts : List Pt) : Bool :=
  match pts.head?, pts.getLast? with
  | some s, some e => decide (|s.x - e.x| + |s.y - e.y| < 1 / 1000)
  | _, _ => false

/-- `Segments._cal_bbox_and_area` (Path.py L135-171). -/
def bboxArea (segs : List Item) : Rect × ℚ :=
  match segs with
  | [.re r] => (r, r.area)
  | _ =>
    let pts := segs.flatMap Item.points
    let rect : Rect := ⟨round2 (minL (pts.map Pt.x)), round2 (minL (pts.map Pt.y)), round2 (maxL (pts.map Pt.x)),
      round2 (maxL (pts.map Pt.y))⟩
    (rect, if closed pts then |shoelace pts / 2| else 0)

/-- `Segments.is_iso_oriented` (Path.py L128-132); `FACTOR_MOST = 0.9`. -/
def isoSegs (segs : List Item) : Bool :=
  decide ((bboxArea segs).1.area = 0 ∨ 9 / 10 ≤ (bboxArea segs).2 / (bboxArea segs).1.area)

/-- A stroke dict (Path.py L57-62). -/
structure RawStroke where
  start : Pt
  stop : Pt
  width : ℚ
  color : ℕ
  deriving DecidableEq, Repr

/-- `to_strokes` of `L`, `R`, `C` (Path.py L36-104). -/
def Item.toStrokes (width : ℚ) (color : ℕ) : Item → List RawStroke
  | .l p q => [⟨p, q, width, color⟩]
  | .c .. => []
  | .re r => [⟨⟨r.x0, r.y0⟩, ⟨r.x1, r.y0⟩, width * 2, color⟩, ⟨⟨r.x1, r.y0⟩, ⟨r.x1, r.y1⟩, width * 2, color⟩,
      ⟨⟨r.x1, r.y1⟩, ⟨r.x0, r.y1⟩, width * 2, color⟩, ⟨⟨r.x0, r.y1⟩, ⟨r.x0, r.y0⟩, width * 2, color⟩]

/-- A drawing (Path.py L6-20). -/
structure Raw where
  items : List Item
  close : Bool
  width : ℚ
  color : Option ℕ
  fill : Option ℕ
  deriving DecidableEq, Repr

/-- `Path.items` (Path.py L213-218). -/
def Raw.subpaths (p : Raw) : List (List Item) := (groupSegments p.items).map fun g => segments g p.close

/-- `Path.is_iso_oriented` (Path.py L277-282). -/
def Raw.iso (p : Raw) : Bool := p.subpaths.all isoSegs

/-- Raw shapes made from a path: strokes and fills. -/
inductive RawShape where
  | stroke (s : RawStroke)
  | fill (bbox : Rect) (color : ℕ)
  deriving DecidableEq, Repr

/-- `Path.to_shapes` (Path.py L285-330). -/
def Raw.toShapes (p : Raw) : List RawShape :=
  (match p.color with
    | some c => (p.subpaths.flatMap fun s => s.flatMap (Item.toStrokes p.width c)).map .stroke
    | none => []) ++
  (match p.fill with
    | some c => p.subpaths.map fun s => .fill (bboxArea s).1 c
    | none => [])

/-- `Paths.contains_curve` (Paths.py L40-53). -/
def containsCurve (ratio : ℚ) (ps : List Raw) : Bool :=
  if ps = [] then false else decide (ratio < ((ps.filter fun p => !p.iso).length : ℚ) / ps.length)

/-- `Paths.to_shapes` (Paths.py L93-114) on the groups of connected paths: raw shapes and whether vector graphics exist. -/
def toShapes (ratio : ℚ) (groups : List (List Raw)) : List RawShape × Bool :=
  (groups.flatMap fun g => if containsCurve ratio g then [] else (g.filter Raw.iso).flatMap Raw.toShapes,
   groups.any (containsCurve ratio))

/-- A `Stroke` object: centre line, width, colour. -/
structure Stroke where
  start : Pt
  stop : Pt
  width : ℚ
  color : ℕ
  deriving DecidableEq, Repr

/-- `Stroke.__init__` (Shape.py L128-142). -/
def Stroke.ofRaw (s : RawStroke) : Stroke :=
  if s.stop.x < s.start.x ∨ s.stop.y < s.start.y then ⟨s.stop, s.start, s.width, s.color⟩ else ⟨s.start, s.stop, s.width, s.color⟩

/-- `Stroke._to_rect` (Shape.py L241-246) and `update_bbox`. -/
def Stroke.bbox (s : Stroke) : Rect :=
  (⟨s.start.x - s.width / 2, s.start.y - s.width / 2, s.stop.x + s.width / 2, s.stop.y + s.width / 2⟩ : Rect).round

/-- `Stroke.horizontal`, `Stroke.vertical` (Shape.py L145-149). -/
def Stroke.horizontal (s : Stroke) : Bool := decide (|s.start.y - s.stop.y| < 1 / 1000)
def Stroke.vertical (s : Stroke) : Bool := decide (|s.start.x - s.stop.x| < 1 / 1000)

end Path
