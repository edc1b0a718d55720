import Verif.Geom
import Verif.Graph
import Verif.Sort
import Mathlib.Tactic.Linarith
/-!
# Model of the plane sweep (common/share.py L245-340) and `group_by_connectivity` (common/Collection.py L81-117)
-/

namespace Sweep
open Geom Py

/-- An entry `(index, rect, x)` of the list `V`. -/
structure Edge where
  idx : ℕ
  r : Rect
  x : ℚ
  deriving DecidableEq, Repr

/-- The two nested loops of `_stab` (share.py L319-334), on sorted lists. Returns the reported pairs in order. -/
def stabLoop : List Edge → List Edge → List (ℕ × ℕ)
  | a :: A, b :: B =>
    if a.r.y0 < b.r.y0 then
      ((b :: B).takeWhile fun e => decide (e.r.y0 < a.r.y1)).map (fun e => (a.idx / 2, e.idx / 2)) ++ stabLoop A (b :: B)
    else
      ((a :: A).takeWhile fun e => decide (e.r.y0 < b.r.y1)).map (fun e => (e.idx / 2, b.idx / 2)) ++ stabLoop (a :: A) B
  | _, _ => []
termination_by A B => A.length + B.length

/-- `_stab` (share.py L294-334). -/
def stab (S1 S2 : List Edge) : List (ℕ × ℕ) :=
  stabLoop (sortBy (fun e => e.r.y0) S1) (sortBy (fun e => e.r.y0) S2)

/-- `solve_rects_intersection` (share.py L245-291): the reported pairs, in order. `num` is always `len(V)`. -/
def solve (V : List Edge) : List (ℕ × ℕ) :=
  if h : V.length < 2 then []
  else
    let c := V.length / 2
    let left := V.take c
    let right := V.drop c
    let X0 := (V[0]'(by omega)).x
    let X := (V[c - 1]'(by omega)).x
    let X1 := (V[V.length - 1]'(by omega)).x
    let S11 := left.filter fun e => decide (e.r.x1 ≤ X)
    let S12 := left.filter fun e => decide (X1 ≤ e.r.x1)
    let S22 := right.filter fun e => decide (X < e.r.x0)
    let S21 := right.filter fun e => decide (e.r.x0 ≤ X0)
    stab S12 S22 ++ stab S21 S11 ++ stab S12 S21 ++ solve left ++ solve right
termination_by V.length
decreasing_by
  · simp only [List.length_take]; omega
  · simp only [List.length_drop]; omega

/-- The edge list of `group_by_connectivity` before sorting (Collection.py L104-110), from position `i`. -/
def edgesFrom (i : ℕ) : List Rect → List Edge
  | [] => []
  | r :: rs => ⟨2 * i, r, r.x0⟩ :: ⟨2 * i + 1, r, r.x1⟩ :: edgesFrom (i + 1) rs

/-- The pairs reported for a list of rectangles (Collection.py L103-112; tolerance already added to the rectangles). -/
def pairs (rs : List Rect) : List (ℕ × ℕ) := solve (sortBy (fun e => e.x) (edgesFrom 0 rs))

/-- `group_by_connectivity` (Collection.py L81-117), as groups of positions. -/
def groupIdx (dx dy : ℚ) (rs : List Rect) : Except Err (List (List ℕ)) :=
  Graph.graphBfs (Graph.build rs.length (pairs (rs.map fun r => r.expand dx dy)))

end Sweep
