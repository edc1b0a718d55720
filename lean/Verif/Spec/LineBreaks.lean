import Verif.Spec.Positions
/-! # Specification: where the lines of a paragraph are broken (C126) -/

namespace Spec
open Geom Py Pipe

/-- For each line of a paragraph, whether there is a line break directly after it. -/
def breaksAfter {α : Type} : List (Para.Out α) → List Bool
  | [] => []
  | .content _ :: .brk :: l => true :: breaksAfter l
  | .content _ :: l => false :: breaksAfter l
  | .tab :: l => breaksAfter l
  | .brk :: l => breaksAfter l

/-- A line that shows nothing but white space. -/
def BlankLine (ws : Char → Bool) (l : Lay.Ln Tok) : Prop :=
  (∀ p, .inl p ∉ entries (l.spans.map fun s => toItem s.2)) ∧ ∀ ch, .inr ch ∈ entries (l.spans.map fun s => toItem s.2) → ws ch.c = true

/-- The space beside a line in a paragraph set between the margins `a` and `b`: up to the right indent, or from the left one if the paragraph is right-aligned. -/
def freeSpace (a b : ℚ) (q : Pose.Par) (l : Lay.Ln Tok) : ℚ :=
  match q.align with
  | .right => l.bbox.x0 - (a + (q.indents.1 + q.indents.2.2))
  | _ => b - q.indents.2.1 - l.bbox.x1

/-- The lines of a paragraph (as wide as `w`) are broken where they have to be: never after the last one; before a blank one; and wherever the free space beside a line exceeds the
given part of the width (up to rounding), but nowhere else. -/
structure BrokenRight (ws : Char → Bool) (ratio a b w : ℚ) (q : Pose.Par) (ls : List (Lay.Ln Tok)) : Prop where
  count : (breaksAfter q.content).length = ls.length
  last : ∀ x ∈ (breaksAfter q.content).getLast?, x = false
  blank : ∀ j n, ls[j + 1]? = some n → BlankLine ws n → (breaksAfter q.content)[j]? = some true
  free : ∀ (j : ℕ) l n, ls[j]? = some l → ls[j + 1]? = some n → ratio * w + 1 / 20 < freeSpace a b q l → (breaksAfter q.content)[j]? = some true
  only : ∀ (j : ℕ) l n, ls[j]? = some l → ls[j + 1]? = some n → (breaksAfter q.content)[j]? = some true → BlankLine ws n ∨ ratio * w - 1 / 20 < freeSpace a b q l

end Spec
