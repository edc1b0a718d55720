/-! # Specification vocabulary for the converter properties (independent of the model) -/

namespace Spec

/-- Meaning of one bound of a page range in an `n`-page document: a negative number counts from the end. -/
def bound (n : Nat) (k : Int) : Int := if k < 0 then k + n else k

/-- Page `i` belongs to the half-open range `s … e` of an `n`-page document (`e = none`: to the end). -/
def InRange (n : Nat) (s : Int) (e : Option Int) (i : Int) : Prop :=
  0 ≤ i ∧ i < n ∧ bound n s ≤ i ∧ ∀ e', e = some e' → i < bound n e'

/-- `out` is exactly the entries of `req` satisfying `P`, in the same order and multiplicity. -/
def ExactlyThose (P : Int → Prop) [DecidablePred P] (req out : List Int) : Prop :=
  out.Sublist req ∧ ∀ i, out.count i = if P i then req.count i else 0

/-- `out` lists, in increasing order and once each, exactly the numbers satisfying `P`. -/
def Enumerates {α : Type} [LT α] (P : α → Prop) (out : List α) : Prop :=
  out.Pairwise (· < ·) ∧ ∀ i, i ∈ out ↔ P i

/-- A file is safe w.r.t. its previous content: it still has it, or has a complete new content. -/
def Safe {C : Type} (complete : C → Prop) (before now : Option C) : Prop :=
  now = before ∨ ∃ c, now = some c ∧ complete c

/-- What can happen to a page during the life of a converter: it gets successfully processed; it is
un-done (re-reading succeeded but laying it out again failed); something without effect on its status. -/
inductive Ev where
  | done | undone | noEffect
  deriving DecidableEq, Repr

/-- The page was successfully processed at some point and never un-done afterwards. -/
def Converted (log : List (Nat × Ev)) (k : Nat) : Prop :=
  ∃ before after, log = before ++ (k, Ev.done) :: after ∧ (k, Ev.undone) ∉ after

end Spec
