import Mathlib.Data.List.Sort
import Mathlib.Data.Prod.Lex
import Mathlib.Order.Lattice
/-! # Python's `list.sort(key=…)` -/

namespace Py
variable {α κ : Type} [LinearOrder κ]

/-- `list.sort(key=…)` / `sorted(…, key=…)`: Python's stable sort (insertion sort is stable, so the result is the same
list). -/
def sortBy (key : α → κ) (l : List α) : List α := l.insertionSort fun a b => key a ≤ key b

theorem sortBy_perm (key : α → κ) (l : List α) : (sortBy key l).Perm l := List.perm_insertionSort _ l

theorem mem_sortBy (key : α → κ) (l : List α) (x : α) : x ∈ sortBy key l ↔ x ∈ l := (sortBy_perm key l).mem_iff

theorem sortBy_pairwise (key : α → κ) (l : List α) : (sortBy key l).Pairwise fun a b => key a ≤ key b := by
  have t : Std.Total fun a b : α => key a ≤ key b := ⟨fun a b => le_total (key a) (key b)⟩
  have t2 : IsTrans α fun a b : α => key a ≤ key b := ⟨fun a b c => le_trans⟩
  exact List.pairwise_insertionSort _ l

/-- Sorting a sorted list changes nothing. -/
theorem sortBy_of_pairwise (key : α → κ) (l : List α) (h : l.Pairwise fun a b => key a ≤ key b) : sortBy key l = l :=
  List.Pairwise.insertionSort_eq h

theorem sortBy_idem (key : α → κ) (l : List α) : sortBy key (sortBy key l) = sortBy key l :=
  sortBy_of_pairwise key _ (sortBy_pairwise key l)

/-- Stability: elements with keys in order keep their relative order. -/
theorem sortBy_stable (key : α → κ) (l : List α) (a b : α) (hk : key a ≤ key b) (h : [a, b].Sublist l) :
    [a, b].Sublist (sortBy key l) := by
  have t : Std.Total fun a b : α => key a ≤ key b := ⟨fun a b => le_total (key a) (key b)⟩
  have t2 : IsTrans α fun a b : α => key a ≤ key b := ⟨fun a b c => le_trans⟩
  exact List.pair_sublist_insertionSort hk h

/-- Stability for all pairs: the result is ordered by key, and elements of equal keys are related as before. -/
theorem sortBy_pairwise_lex (key : α → κ) (R : α → α → Prop) (l : List α) (h : l.Pairwise R) :
    (sortBy key l).Pairwise fun a b => key a < key b ∨ key a = key b ∧ R a b := by
  induction l with
  | nil => simp [sortBy]
  | cons x l ih =>
    have hx := List.pairwise_cons.1 h
    have ih := ih hx.2
    have hr : ∀ b ∈ sortBy key l, R x b := fun b hb => hx.1 b ((mem_sortBy key l b).1 hb)
    have hs := sortBy_pairwise key l
    show (List.orderedInsert (fun a b => key a ≤ key b) x (sortBy key l)).Pairwise _
    revert ih hr hs
    generalize sortBy key l = m
    intro ih hr hs
    induction m with
    | nil => simp
    | cons y m ihm =>
      have ih' := List.pairwise_cons.1 ih
      have hs' := List.pairwise_cons.1 hs
      rw [List.orderedInsert_cons]
      split_ifs with hxy
      · refine List.pairwise_cons.2 ⟨fun b hb => ?_, ih⟩
        have hxb : key x ≤ key b := by
          rcases List.mem_cons.1 hb with rfl | hb'
          · exact hxy
          · exact le_trans hxy (hs'.1 b hb')
        rcases lt_or_eq_of_le hxb with h1 | h1
        · exact Or.inl h1
        · exact Or.inr ⟨h1, hr b hb⟩
      · refine List.pairwise_cons.2 ⟨fun b hb => ?_, ihm ih'.2 (fun b hb => hr b (List.mem_cons_of_mem _ hb)) hs'.2⟩
        rcases List.mem_cons.1 ((List.perm_orderedInsert _ x m).mem_iff.1 hb) with rfl | hb'
        · exact Or.inl (lt_of_not_ge hxy)
        · exact ih'.1 b hb'

end Py
