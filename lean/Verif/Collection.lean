import Verif.Py
import Verif.Geom
import Verif.Sort
/-!
# Model of `common/Element.py` (box updates) and `common/Collection.py` (containers)

An element is seen through its box and text direction (`Geom.El`); a container through its elements and the box of its
parent.
-/

namespace Coll
open Geom Py

/-- `Element.update_bbox` (common/Element.py L107-115). -/
def updateBbox (rect : Rect) : Rect := rect.round

/-- `Element.union_bbox` (common/Element.py L118-127). -/
def unionBbox (self e : Rect) : Rect := updateBbox (self.union e)

/-- `BaseCollection.bbox` (common/Collection.py L30-37). -/
def bbox (rs : List Rect) : Rect := (rs.foldl Rect.union Rect.zero).round

/-- A collection: its elements and its parent's box (`none`: no parent). -/
structure State where
  items : List El
  parent : Option Rect
  deriving DecidableEq

/-- The mutating calls on a collection. -/
inductive Op where
  | append (e : El)
  | extend (es : List El)
  | insert (nth : ℕ) (e : El)
  | pop (nth : ℕ)
  | reset (es : List El)

namespace State

/-- `Collection.append` (common/Collection.py L161-173). -/
def append (s : State) (e : El) : State :=
  if !e.truthy then s else ⟨s.items ++ [e], s.parent.map fun p => unionBbox p e.bbox⟩

/-- `Collection.extend` (common/Collection.py L176-179). -/
def extend (s : State) (es : List El) : State := es.foldl append s

/-- `Collection.insert` (common/Collection.py L196-206) at a non-negative position. -/
def insert (s : State) (nth : ℕ) (e : El) : State :=
  if !e.truthy then s
  else ⟨s.items.take nth ++ e :: s.items.drop nth, s.parent.map fun p => unionBbox p e.bbox⟩

/-- `Collection.pop` (common/Collection.py L209-218) at a non-negative position; out of range raises and changes nothing. -/
def pop (s : State) (nth : ℕ) : State := ⟨s.items.eraseIdx nth, s.parent⟩

/-- `Collection.reset` (common/Collection.py L182-193). -/
def reset (s : State) (es : List El) : State := extend ⟨[], s.parent⟩ es

/-- One call. -/
def step (s : State) : Op → State
  | .append e => s.append e
  | .extend es => s.extend es
  | .insert n e => s.insert n e
  | .pop n => s.pop n
  | .reset es => s.reset es

end State

/-- `Collection.text_direction` (common/Collection.py L134-143). -/
def textDirection (l : List El) : Dir :=
  match l with
  | [] => .leftRight
  | e :: es => if es.all (fun x => x.dir = e.dir) then e.dir else .leftRight

/-- A lexicographically ordered triple (a Python tuple as sort key). -/
abbrev Key := ℚ ×ₗ ℚ ×ₗ ℚ

/-- Tuple `(a, b, c)`. -/
def key (a b c : ℚ) : Key := toLex (a, toLex (b, c))

/-- `Collection.sort_in_reading_order` (common/Collection.py L221-229). -/
def sortInReadingOrder (l : List El) : List El :=
  if textDirection l = .leftRight then sortBy (fun e => key e.bbox.y0 e.bbox.x0 e.bbox.x1) l
  else sortBy (fun e => key e.bbox.x0 e.bbox.y1 e.bbox.y0) l

/-- `Collection.sort_in_line_order` (common/Collection.py L232-240). -/
def sortInLineOrder (l : List El) : List El :=
  if textDirection l = .leftRight then sortBy (fun e => key e.bbox.x0 e.bbox.y0 e.bbox.x1) l
  else sortBy (fun e => key e.bbox.y1 e.bbox.x0 e.bbox.y0) l

/-- `Collection.contained_in_bbox` (common/Collection.py L243-251). -/
def containedIn (bbox : Rect) (l : List El) : List El := l.filter fun e => bbox.contains e.bbox

/-- `round(x, 2)`. -/
def round2 (x : ℚ) : ℚ := (roundHE (100 * x) : ℚ) / 100

/-- `Collection.split_with_intersection` (common/Collection.py L253-273); a zero-area instance raises
`ZeroDivisionError`. -/
def splitWith (bbox : Rect) (threshold : ℚ) : List El → Except Err (List El × List El)
  | [] => .ok ([], [])
  | e :: es =>
    if e.bbox.area = 0 then .error .zeroDiv
    else
      let factor := round2 ((e.bbox.inter bbox).area / e.bbox.area)
      match splitWith bbox threshold es with
      | .error x => .error x
      | .ok (a, b) => if threshold ≤ factor then .ok (e :: a, b) else .ok (a, e :: b)

end Coll
