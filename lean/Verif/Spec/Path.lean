import Verif.Path
import Mathlib.Data.List.Chain
/-! # Specification of sub-paths and outlines -/

namespace Spec
open Path Geom

/-- A line or a (Bézier) curve goes from its first to its last point; a rectangle has no ends. -/
inductive Goes : Item → Pt → Pt → Prop
  | line (p q : Pt) : Goes (.l p q) p q
  | curve (p c₁ c₂ q : Pt) : Goes (.c p c₁ c₂ q) p q

/-- `b` is a line or curve that starts where the line or curve `a` ends. -/
def Follows (a b : Item) : Prop := ∃ s m e, Goes a s m ∧ Goes b m e

/-- `gs` is the decomposition of a drawing into connected sub-paths: nothing lost, added or reordered; within a group each item
follows its predecessor (so a rectangle is alone); the groups are as large as possible. -/
structure Decomposition (items : List Item) (gs : List (List Item)) : Prop where
  all : gs.flatten = items
  nonempty : ∀ g ∈ gs, g ≠ []
  connected : ∀ g ∈ gs, g.IsChain Follows
  maximal : gs.IsChain fun g g' => ∀ a ∈ g.getLast?, ∀ b ∈ g'.head?, ¬ Follows a b

/-- A point on the outline of a rectangle. -/
def OnOutline (r : Rect) (p : Pt) : Prop :=
  (r.x0 ≤ p.x ∧ p.x ≤ r.x1 ∧ r.y0 ≤ p.y ∧ p.y ≤ r.y1) ∧ (p.x = r.x0 ∨ p.x = r.x1 ∨ p.y = r.y0 ∨ p.y = r.y1)

/-- A point of an axis-parallel segment given by its two ends (smaller first). -/
def OnSegment (a b p : Pt) : Prop := a.x ≤ p.x ∧ p.x ≤ b.x ∧ a.y ≤ p.y ∧ p.y ≤ b.y

end Spec
