import Verif.Geom
/-! # Small specification of boxes: covering and hulls -/

namespace Spec
open Geom

/-- Box `a` covers box `b`. -/
def Covers (a b : Rect) : Prop := a.x0 ≤ b.x0 ∧ a.y0 ≤ b.y0 ∧ b.x1 ≤ a.x1 ∧ b.y1 ≤ a.y1

instance (a b : Rect) : Decidable (Covers a b) := by unfold Covers; infer_instance

/-- A box with positive width and height. -/
def Proper (r : Rect) : Prop := r.x0 < r.x1 ∧ r.y0 < r.y1

instance (a : Rect) : Decidable (Proper a) := by unfold Proper; infer_instance

/-- All coordinates are multiples of 0.1, as in every stored box. -/
def Tenths (r : Rect) : Prop := ∃ a b c d : ℤ, r = ⟨a / 10, b / 10, c / 10, d / 10⟩

/-- `h` is the smallest box covering all of `rs`. -/
def IsHull (rs : List Rect) (h : Rect) : Prop := (∀ r ∈ rs, Covers h r) ∧ ∀ h', (∀ r ∈ rs, Covers h' r) → Covers h' h

end Spec
