import Verif.Lines
/-! # Specification of "flow layout" (C107), in terms of the lines of a text block only -/

namespace Spec
open Geom

/-- A printed row: horizontal lines side by side between one top and one bottom, listed from left to right. -/
structure PrintedRow {σ : Type} (r : List (Lns.Ln σ)) : Prop where
  nonempty : r ≠ []
  horizontal : ∀ l ∈ r, l.dir = .leftRight
  level : ∃ t b, t < b ∧ ∀ l ∈ r, l.bbox.y0 = t ∧ l.bbox.y1 = b
  wide : ∀ l ∈ r, l.bbox.x0 < l.bbox.x1
  apart : r.Pairwise fun a b => a.bbox.x1 ≤ b.bbox.x0

/-- The lines of the row belong together: they come from one block of the PDF and no gap between two neighbours reaches `sep`. -/
def BelongsTogether {σ : Type} (sep : ℚ) (r : List (Lns.Ln σ)) : Prop :=
  2 ≤ r.length → (∃ p, ∀ l ∈ r, l.pid = some p) ∧ r.IsChain fun a b => b.bbox.x0 - a.bbox.x1 < sep

/-- Python iterates over a set of small integers in ascending order. -/
def SetOrder (iter : List ℕ → List ℕ) : Prop := ∀ l, (iter l).Perm l ∧ (l.Nodup → (iter l).Pairwise (· < ·))

end Spec
