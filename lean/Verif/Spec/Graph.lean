import Mathlib.Logic.Relation
import Mathlib.Data.List.Perm.Basic
/-! # Specification of "connected components of a relation" (independent of the model) -/

namespace Spec

/-- `i` and `j` are linked by a chain of positions `< n`, consecutive ones being related (in one direction or the
other). -/
def Linked (n : ℕ) (R : ℕ → ℕ → Prop) : ℕ → ℕ → Prop :=
  Relation.ReflTransGen fun i j => i < n ∧ j < n ∧ (R i j ∨ R j i)

/-- `gs` are the connected components of the positions `0 … n-1`: every position is in exactly one group, no group is
empty, and a group is exactly the set of positions linked to any one of its members. -/
structure Components (n : ℕ) (R : ℕ → ℕ → Prop) (gs : List (List ℕ)) : Prop where
  partition : gs.flatten.Perm (List.range n)
  nonempty : ∀ g ∈ gs, g ≠ []
  closed : ∀ g ∈ gs, ∀ a ∈ g, ∀ b, b ∈ g ↔ Linked n R a b

/-- The relation `f` between the elements at two positions of a list. -/
def At {α : Type} (xs : List α) (f : α → α → Bool) (i j : ℕ) : Prop :=
  ∃ a b, xs[i]? = some a ∧ xs[j]? = some b ∧ f a b = true

end Spec
