import Mathlib.Data.Rat.Lemmas
/-! # Specification of tables: division of a grid into rectangles

Independent of the code: an `r × c` grid of squares is divided into rectangles. -/

namespace Spec

/-- A rectangle of grid squares: rows `top ≤ i < bot`, columns `left ≤ j < right`. -/
structure GRect where
  top : ℕ
  left : ℕ
  bot : ℕ
  right : ℕ
  deriving DecidableEq, Repr

namespace GRect

/-- Square `(i, j)` belongs to the rectangle. -/
def Has (q : GRect) (i j : ℕ) : Prop := q.top ≤ i ∧ i < q.bot ∧ q.left ≤ j ∧ j < q.right

instance (q : GRect) (i j : ℕ) : Decidable (q.Has i j) := by unfold Has; infer_instance

end GRect

/-- `at_ i j` is the rectangle containing square `(i, j)` in a division of the `r × c` grid into rectangles. -/
structure Division (r c : ℕ) (at_ : ℕ → ℕ → GRect) : Prop where
  mem : ∀ i < r, ∀ j < c, (at_ i j).Has i j
  inside : ∀ i < r, ∀ j < c, (at_ i j).bot ≤ r ∧ (at_ i j).right ≤ c
  same : ∀ i < r, ∀ j < c, ∀ i' j', (at_ i j).Has i' j' → at_ i' j' = at_ i j

/-- Spans given for some squares of an `r × c` grid (`none`: the square belongs to another cell): the cells stay in the grid and cover
every square exactly once. -/
def Tiles (r c : ℕ) (span : ℕ → ℕ → Option (ℕ × ℕ)) : Prop :=
  (∀ i < r, ∀ j < c, ∀ m n, span i j = some (m, n) → i + m ≤ r ∧ j + n ≤ c) ∧
  ∀ i < r, ∀ j < c, ∃! p : ℕ × ℕ, p.1 < r ∧ p.2 < c ∧
    ∃ m n, span p.1 p.2 = some (m, n) ∧ p.1 ≤ i ∧ i < p.1 + m ∧ p.2 ≤ j ∧ j < p.2 + n

end Spec
