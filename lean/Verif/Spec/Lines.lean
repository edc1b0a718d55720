import Verif.Spec.Geom
import Verif.Lines
/-! # Specification for joining lines and blocks -/

namespace Spec
open Geom Lns

/-- The text (and images) of a list of lines, in order. -/
def content {σ : Type} (ls : List (Ln σ)) : List σ := ls.flatMap fun l => l.spans.map Prod.snd

/-- A line with a real, rounded box whose spans have boxes. -/
def LineGood {σ : Type} (l : Ln σ) : Prop := Proper l.bbox ∧ Tenths l.bbox ∧ ∀ s ∈ l.spans, s.1 ≠ Rect.zero

/-- Two boxes overlap so much that the common area is at least the part `ov` of the smaller one. -/
def OverlapBy (ov : ℚ) (a b : Rect) : Prop :=
  max a.x0 b.x0 ≤ min a.x1 b.x1 ∧ max a.y0 b.y0 ≤ min a.y1 b.y1 ∧
  ov * min (a.width * a.height) (b.width * b.height) ≤
    (min a.x1 b.x1 - max a.x0 b.x0) * (min a.y1 b.y1 - max a.y0 b.y0)

/-- Horizontal lines in one row: each one's centre is above the other one's bottom. -/
def SameRow {σ : Type} (a b : Ln σ) : Prop :=
  a.dir = b.dir ∧ if a.dir = .leftRight then
    (a.bbox.y0 + a.bbox.y1) / 2 ≤ b.bbox.y1 ∧ (b.bbox.y0 + b.bbox.y1) / 2 ≤ a.bbox.y1
  else (a.bbox.x0 + a.bbox.x1) / 2 ≤ b.bbox.x1 ∧ (b.bbox.x0 + b.bbox.x1) / 2 ≤ a.bbox.x1

/-- Line `b` starts where line `a` ends, up to `mg`. -/
def Next {σ : Type} (mg : ℚ) (a b : Ln σ) : Prop := |b.bbox.x0 - a.bbox.x1| ≤ mg

/-- A block with a real box whose lines are good and lie in it, and whose spans lie in their lines. -/
structure BlockGood {σ : Type} (b : Blk σ) : Prop where
  proper : Proper b.bbox
  tenths : Tenths b.bbox
  lines : ∀ l ∈ b.lines, LineGood l ∧ Covers b.bbox l.bbox ∧ ∀ s ∈ l.spans, Covers l.bbox s.1

end Spec
