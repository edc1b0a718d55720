import Verif.Spec.Geom
import Mathlib.Logic.Relation
/-! # Specification: lines of text and the borders drawn between them -/

namespace Spec
open Geom

/-- The rows of the lines are clear: two lines either share at least a tenth of the height of the lower one, or lie one below the other. -/
def ClearRows (ls : List El) : Prop :=
  ∀ a ∈ ls, ∀ b ∈ ls,
    (1 / 10) * min a.bbox.height b.bbox.height ≤ min a.bbox.y1 b.bbox.y1 - max a.bbox.y0 b.bbox.y0 ∨
      a.bbox.y1 ≤ b.bbox.y0 ∨ b.bbox.y1 ≤ a.bbox.y0

instance (ls : List El) : Decidable (ClearRows ls) := by unfold ClearRows; infer_instance

/-- Horizontal lines of text with a real box, stored in multiples of 0.1. -/
def TextLines (ls : List El) : Prop := ∀ l ∈ ls, Proper l.bbox ∧ Tenths l.bbox ∧ l.dir = .leftRight

/-- The segment from `(x0, y0)` to `(x1, y1)` (horizontal or vertical, left to right or top to bottom) does not run through the inside of
the box `r`, where the box is taken smaller by `tol` on each side. -/
def Beside (tol : ℚ) (seg : ℚ × ℚ × ℚ × ℚ) (r : Rect) : Prop :=
  r.x1 ≤ seg.1 + tol ∨ seg.2.2.1 - tol ≤ r.x0 ∨ r.y1 ≤ seg.2.1 + tol ∨ seg.2.2.2 - tol ≤ r.y0

/-- The horizontal extents of two lines meet. -/
def ShareColumn (a b : El) : Prop := max a.bbox.x0 b.bbox.x0 ≤ min a.bbox.x1 b.bbox.x1

/-- Two lines share at least a tenth of the height of the lower one. -/
def ShareRow (a b : El) : Prop := (1 / 10) * min a.bbox.height b.bbox.height ≤ min a.bbox.y1 b.bbox.y1 - max a.bbox.y0 b.bbox.y0

/-- A chain of elements of `g` from `a` to `b`, each related to the next one. -/
def Chain (f : El → El → Prop) (g : List El) (a b : El) : Prop := Relation.ReflTransGen (fun x y => x ∈ g ∧ y ∈ g ∧ f x y) a b

/-- Neither a vertical nor a horizontal gap divides these lines. -/
def Undivided (g : List El) : Prop := ∀ a ∈ g, ∀ b ∈ g, Chain ShareColumn g a b ∧ Chain ShareRow g a b

/-- A border at position `pos` from `lo` to `hi` lies between the two boxes and is long enough for both, up to `tol`. -/
def Parts (tol : ℚ) (horizontal : Bool) (pos lo hi : ℚ) (a b : Rect) : Prop :=
  if horizontal then ((a.y1 ≤ pos + tol ∧ pos - tol ≤ b.y0) ∨ (b.y1 ≤ pos + tol ∧ pos - tol ≤ a.y0)) ∧
    lo - tol ≤ min a.x0 b.x0 ∧ max a.x1 b.x1 ≤ hi + tol
  else ((a.x1 ≤ pos + tol ∧ pos - tol ≤ b.x0) ∨ (b.x1 ≤ pos + tol ∧ pos - tol ≤ a.x0)) ∧
    lo - tol ≤ min a.y0 b.y0 ∧ max a.y1 b.y1 ≤ hi + tol

end Spec
