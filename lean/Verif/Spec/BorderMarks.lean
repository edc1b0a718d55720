import Verif.Full
/-! # Specification: drawn lines used as borders of borderless tables (C105) -/

namespace Spec
open Geom Py

/-- Direction of a drawn line. -/
def LineIsHorizontal (s : Table.St) : Prop := |s.y0 - s.y1| < 1 / 1000

instance (s : Table.St) : Decidable (LineIsHorizontal s) := by unfold LineIsHorizontal; infer_instance

/-- Position of a drawn line across its direction. -/
def linePos (s : Table.St) : ℚ := if LineIsHorizontal s then s.y0 else s.x0

/-- Where a drawn line starts and ends. -/
def lineFrom (s : Table.St) : ℚ := if LineIsHorizontal s then s.x0 else s.y0
def lineTo (s : Table.St) : ℚ := if LineIsHorizontal s then s.x1 else s.y1

/-- Between two moments a border of the line's direction, open before, got the position of the line. -/
def GivesPosition (before after : Border.State) (s : Table.St) : Prop :=
  ∃ (i : ℕ) (b b' : Border.Bd), before[i]? = some b ∧ b.value = none ∧ (b.horizontal = true ↔ LineIsHorizontal s) ∧ after[i]? = some b' ∧ b'.value = some (linePos s)

/-- The line is used by the placed borders `st`: one of them is drawn at the position of the line, with its width and colour, in its range (1pt tolerance), and the line does
not run strictly between the ranges of the two borders at the ends. -/
def UsedBy (st : Border.State) (s : Table.St) : Prop :=
  ∃ (i : ℕ) (b p q : Border.Bd), st[i]? = some b ∧ st[b.lb]? = some p ∧ st[b.ub]? = some q ∧ (b.horizontal = true ↔ LineIsHorizontal s) ∧ b.value = some (linePos s) ∧
    b.width = s.width ∧ b.color = s.color ∧ b.reference = false ∧ b.lo - 1 ≤ linePos s ∧ linePos s ≤ b.hi + 1 ∧ (lineFrom s ≤ p.hi ∨ q.lo ≤ lineTo s)

end Spec
