import Verif.Draw
import Verif.Spec.Whole
/-! # Specification: lines drawn on a page (C109), a table drawn with lines (C110) -/

namespace Spec
open Geom Py Path

/-- What a line from `a` to `b` of width `w` and colour `c` paints: centre line and box (to 0.1pt). -/
def lineStroke (w : ℚ) (c : ℕ) (a b : Pt) : Table.St :=
  ⟨min a.x b.x, min a.y b.y, max a.x b.x, max a.y b.y, (⟨min a.x b.x - w / 2, min a.y b.y - w / 2, max a.x b.x + w / 2, max a.y b.y + w / 2⟩ : Rect).round, w, c⟩

/-- The lines of a drawing command: a line, or the four sides of a rectangle (with twice the width, see C36). -/
def itemStrokes (w : ℚ) (c : ℕ) : Item → List Table.St
  | .l a b => [lineStroke w c a b]
  | .re r => [lineStroke (2 * w) c ⟨r.x0, r.y0⟩ ⟨r.x1, r.y0⟩, lineStroke (2 * w) c ⟨r.x1, r.y0⟩ ⟨r.x1, r.y1⟩, lineStroke (2 * w) c ⟨r.x0, r.y1⟩ ⟨r.x1, r.y1⟩,
      lineStroke (2 * w) c ⟨r.x0, r.y0⟩ ⟨r.x0, r.y1⟩]
  | .c .. => []

/-- The lines of a drawing. -/
def drawnStrokes (p : Path.Raw) : List Table.St :=
  match p.color with
  | some c => p.items.flatMap (itemStrokes p.width c)
  | none => []

/-- The second command does not go on where the first one ends. -/
def NotJoined (i j : Item) : Prop := ∀ a b c d, i = .l a b → j = .l c d → b ≠ c

/-- A drawing of horizontal and vertical lines and rectangles, not filled; lines are not joined to polygons. -/
structure Straight (p : Path.Raw) : Prop where
  hollow : p.fill = none
  width : 0 < p.width
  lines : ∀ it ∈ p.items, (∃ a b, it = .l a b ∧ (a.x = b.x ∨ a.y = b.y)) ∨ ∃ r, it = .re r ∧ r.Valid
  apart : p.items.IsChain NotJoined

/-- End points and corners. -/
def corners : Item → List Pt
  | .l a b => [a, b]
  | .re r => [⟨r.x0, r.y0⟩, ⟨r.x1, r.y0⟩, ⟨r.x1, r.y1⟩, ⟨r.x0, r.y1⟩]
  | .c a b c d => [a, b, c, d]

/-- Some corner of the drawing lies on the page (more than 0.01pt from its sides). -/
def PointOn (page : Rect) (p : Path.Raw) : Prop :=
  ∃ it ∈ p.items, ∃ q ∈ corners it, page.x0 + 1 / 100 < q.x ∧ q.x < page.x1 - 1 / 100 ∧ page.y0 + 1 / 100 < q.y ∧ q.y < page.y1 - 1 / 100

/-- Common area of two boxes. -/
def commonArea (a b : Rect) : ℚ := max 0 (min a.x1 b.x1 - max a.x0 b.x0) * max 0 (min a.y1 b.y1 - max a.y0 b.y0)

/-- Two lines of different colour, or with a common area of less than the share `t` of the smaller one. -/
def Distinct (t : ℚ) (s u : Table.St) : Prop := s.color ≠ u.color ∨ commonArea s.bbox u.bbox < t * min s.bbox.area u.bbox.area

/-- A box that is partly on the page, and not smaller than `m` in both directions. -/
def Visible (page : Rect) (m : ℚ) (b : Rect) : Prop :=
  Proper b ∧ (b.x0 < page.x1 ∧ page.x0 < b.x1 ∧ b.y0 < page.y1 ∧ page.y0 < b.y1) ∧ (m ≤ b.x1 - b.x0 ∨ m ≤ b.y1 - b.y0)

instance (page : Rect) (m : ℚ) (b : Rect) : Decidable (Visible page m b) := by unfold Visible; infer_instance

/-- The page with its drawn lines and its links, as they are. -/
def asDrawn {π : Type} (p : Draw.Page π) : Whole.Page π :=
  ⟨p.box, p.work, p.props, p.raw, (p.drawings.flatMap drawnStrokes).map Full.Sh.stroke ++ p.links.map fun l => Full.Sh.link l.round, p.ids, p.styled, p.fmt⟩

/-- A page with one grid drawn by lines and rectangles, and text (see `GridPage`). -/
structure LinePage {π : Type} (c : Draw.Cfg) (X Y : ℕ → ℚ) (r k : ℕ) (W : ℚ) (p : Draw.Page π) : Prop where
  grid : GridPage c.whole X Y r k W (asDrawn p)
  straight : ∀ d ∈ p.drawings, Straight d ∧ PointOn p.box d
  links : ∀ l ∈ p.links, l.Valid
  page : Proper p.box
  work : Covers p.box p.work
  top : p.box.y0 < Y 0 + W / 2
  bottom : Y r - W / 2 < p.box.y1

/-- The settings used make sense. -/
structure SaneDraw (c : Draw.Cfg) : Prop where
  whole : Sane c.whole
  ratio : 0 ≤ c.ratio
  threshold : 1 / 2 ≤ c.threshold

end Spec
