import Verif.Num
/-!
# `fitz.Rect` (PyMuPDF 1.18) and `common/Element.py`

`Rect` operations are an assumption about PyMuPDF (DESIGN.md, trusted base). Rectangles are taken as normalised
(`x0 ≤ x1`, `y0 ≤ y1`) where theorems say so.
-/

namespace Geom
open Py

/-- `fitz.Rect`. -/
structure Rect where
  x0 : ℚ
  y0 : ℚ
  x1 : ℚ
  y1 : ℚ
  deriving DecidableEq, Repr

namespace Rect

/-- `fitz.Rect()`. -/
def zero : Rect := ⟨0, 0, 0, 0⟩

/-- `bool(rect)`: false iff all coordinates are zero. -/
def truthy (r : Rect) : Bool := decide (r ≠ zero)

/-- Normalised rectangle. -/
def Valid (r : Rect) : Prop := r.x0 ≤ r.x1 ∧ r.y0 ≤ r.y1

instance (r : Rect) : Decidable r.Valid := by unfold Valid; infer_instance

/-- `rect.isEmpty`. -/
def isEmpty (r : Rect) : Prop := r.x0 = r.x1 ∨ r.y0 = r.y1

instance (r : Rect) : Decidable r.isEmpty := by unfold isEmpty; infer_instance

def width (r : Rect) : ℚ := r.x1 - r.x0
def height (r : Rect) : ℚ := r.y1 - r.y0

/-- `rect.getArea()`. -/
def area (r : Rect) : ℚ := r.width * r.height

/-- `a & b`. -/
def inter (a b : Rect) : Rect :=
  if a.isEmpty ∨ b.isEmpty then zero
  else
    let r : Rect := ⟨max a.x0 b.x0, max a.y0 b.y0, min a.x1 b.x1, min a.y1 b.y1⟩
    if r.x1 < r.x0 ∨ r.y1 < r.y0 then zero else r

/-- `a | b`: an empty operand is ignored. -/
def union (a b : Rect) : Rect :=
  if b.isEmpty then a
  else if a.isEmpty then b
  else ⟨min a.x0 b.x0, min a.y0 b.y0, max a.x1 b.x1, max a.y1 b.y1⟩

/-- `a.contains(b)` (operands normalised). -/
def contains (a b : Rect) : Bool :=
  if a.isEmpty then false
  else if b.isEmpty then true
  else decide (a.x0 ≤ b.x0 ∧ a.y0 ≤ b.y0 ∧ b.x1 ≤ a.x1 ∧ b.y1 ≤ a.y1)

/-- `a.intersects(b)`. -/
def intersects (a b : Rect) : Bool :=
  if a.isEmpty ∨ b.isEmpty then false
  else if (inter a b).isEmpty then false else true

/-- `rect + (-dx, -dy, dx, dy)`. -/
def expand (r : Rect) (dx dy : ℚ) : Rect := ⟨r.x0 - dx, r.y0 - dy, r.x1 + dx, r.y1 + dy⟩

/-- `fitz.Rect([round(x,1) for x in rect])` (Element.update_bbox, common/Element.py L108-115; also
BaseCollection.bbox, common/Collection.py L37). -/
def round (r : Rect) : Rect := ⟨round1 r.x0, round1 r.y0, round1 r.x1, round1 r.y1⟩

end Rect

/-- Text direction (common/share.py L32-40). -/
inductive Dir where
  | ignore | leftRight | bottomTop
  deriving DecidableEq, Repr

/-- What the geometric predicates see of an element: its box and its text direction. -/
structure El where
  bbox : Rect
  dir : Dir := .leftRight
  deriving DecidableEq, Repr

namespace El

/-- `bool(element)` (common/Element.py L62-64). -/
def truthy (e : El) : Bool := e.bbox.truthy

/-- `is_horizontal_text` (common/share.py L67-70). -/
def horizontal (e : El) : Bool := e.dir = .leftRight

/-- Extent along the x-axis (`b = true`) or y-axis of a box: `(bbox[idx], bbox[idx+2])`. -/
def ext (b : Bool) (r : Rect) : ℚ × ℚ := if b then (r.x0, r.x1) else (r.y0, r.y1)

/-- `L1+L2-L >= factor*min(L1,L2)` (common/Element.py L220-224 and L252-255). -/
def overlapEnough (p q : ℚ × ℚ) (factor : ℚ) : Bool :=
  let L1 := p.2 - p.1
  let L2 := q.2 - q.1
  let L := max p.2 q.2 - min p.1 q.1
  decide (factor * min L1 L2 ≤ L1 + L2 - L)

/-- `Element.vertically_align_with` (common/Element.py L188-224). -/
def verticallyAlign (self e : El) (factor : ℚ) (textDirection : Bool) : Bool :=
  if !e.truthy || !self.truthy then false
  else
    let isH := if textDirection then self.horizontal else true
    overlapEnough (ext isH self.bbox) (ext isH e.bbox) factor

/-- `Element.horizontally_align_with` (common/Element.py L227-255). -/
def horizontallyAlign (self e : El) (factor : ℚ) (textDirection : Bool) : Bool :=
  if !e.truthy || !self.truthy then false
  else
    let isH := if textDirection then self.horizontal else true
    overlapEnough (ext (!isH) self.bbox) (ext (!isH) e.bbox) factor

/-- `Element.in_same_row` (common/Element.py L258-285). -/
def inSameRow (self e : El) : Bool :=
  if !e.truthy || self.dir ≠ e.dir then false
  else
    let p := ext (!self.horizontal) self.bbox
    let q := ext (!self.horizontal) e.bbox
    decide ((p.1 + p.2) / 2 ≤ q.2 ∧ (q.1 + q.2) / 2 ≤ p.2)

/-- `Element.contains` (common/Element.py L133-160); `round2` is `round(·, 2)`. -/
def contains (self e : El) (threshold : ℚ) : Bool :=
  if e.bbox.area = 0 then false
  else
    let factor : ℚ := (roundHE (100 * ((self.bbox.inter e.bbox).area / e.bbox.area)) : ℚ) / 100
    if factor < threshold then false
    else if self.bbox.height ≤ self.bbox.width then decide (e.bbox.width ≤ self.bbox.width + 1)
    else decide (e.bbox.height ≤ self.bbox.height + 1)

/-- `Element.get_main_bbox` (common/Element.py L163-185); `1e-6` stands for an edge-only intersection. A zero
denominator cannot occur: `a ≠ 0` makes both areas non-zero. -/
def mainBbox (self e : Rect) (threshold : ℚ) : Option Rect :=
  let b := self.inter e
  if b.truthy = false then none
  else
    let factor : ℚ := if b.area ≠ 0 then b.area / min self.area e.area else 1 / 1000000
    if threshold ≤ factor then some (self.union e) else none

end El

/-! ## Lemmas -/

namespace Rect

theorem union_covers_left (a b : Rect) (h : ¬ a.isEmpty) :
    (a.union b).x0 ≤ a.x0 ∧ (a.union b).y0 ≤ a.y0 ∧ a.x1 ≤ (a.union b).x1 ∧ a.y1 ≤ (a.union b).y1 := by
  unfold union
  split
  · exact ⟨le_refl _, le_refl _, le_refl _, le_refl _⟩
  · exact ⟨min_le_left _ _, min_le_left _ _, le_max_left _ _, le_max_left _ _⟩

theorem union_covers_right (a b : Rect) (h : ¬ b.isEmpty) :
    (a.union b).x0 ≤ b.x0 ∧ (a.union b).y0 ≤ b.y0 ∧ b.x1 ≤ (a.union b).x1 ∧ b.y1 ≤ (a.union b).y1 := by
  unfold union
  rw [if_neg h]
  split
  · exact ⟨le_refl _, le_refl _, le_refl _, le_refl _⟩
  · exact ⟨min_le_right _ _, min_le_right _ _, le_max_right _ _, le_max_right _ _⟩

end Rect
end Geom
