import Verif.Spec.Geom
/-! # Specification of a page in two columns -/

namespace Spec
open Geom

/-- Page content (boxes of lines and shapes): boxes of positive size, in tenths of a point, within the width of the page. -/
def PageContent (page : Rect) (els : List Rect) : Prop := ∀ r ∈ els, Proper r ∧ Tenths r ∧ page.x0 ≤ r.x0 ∧ r.x1 ≤ page.x1

/-- A box left or right of the vertical line at `X`, or crossing (or touching) it. -/
def LeftOf (X : ℚ) (r : Rect) : Prop := r.x1 < X
def RightOf (X : ℚ) (r : Rect) : Prop := X < r.x0
def Across (X : ℚ) (r : Rect) : Prop := r.x0 ≤ X ∧ X ≤ r.x1

/-- No box across the line at `X` stands beside the two columns: it lies above everything that is left or right of the line, or below. -/
def TwoColumns (X : ℚ) (els : List Rect) : Prop :=
  ∀ e ∈ els, Across X e →
    (∀ c ∈ els, LeftOf X c ∨ RightOf X c → e.y1 < c.y0) ∨ (∀ c ∈ els, LeftOf X c ∨ RightOf X c → c.y1 < e.y0)

instance (X : ℚ) (r : Rect) : Decidable (LeftOf X r) := by unfold LeftOf; infer_instance
instance (X : ℚ) (r : Rect) : Decidable (RightOf X r) := by unfold RightOf; infer_instance
instance (X : ℚ) (r : Rect) : Decidable (Across X r) := by unfold Across; infer_instance
instance (X : ℚ) (els : List Rect) : Decidable (TwoColumns X els) := by unfold TwoColumns; infer_instance

end Spec
