import Verif.Spec.Positions
/-! # Specification: where the rows of a paragraph start (C122) -/

namespace Spec
open Geom Py Pipe

/-- The cursor after pressing the tab key `n` times: each time it moves to the next tab stop to the right, if there is one. -/
def afterTabs (stops : List ℚ) : ℕ → ℚ → ℚ
  | 0, x => x
  | n + 1, x => afterTabs stops n ((stops.find? fun t => decide (x < t)).getD x)

/-- The number of tabs directly before each line of a paragraph. -/
def tabsBefore {α : Type} : ℕ → List (Para.Out α) → List ℕ
  | _, [] => []
  | n, .tab :: l => tabsBefore (n + 1) l
  | n, .content _ :: l => n :: tabsBefore 0 l
  | _, .brk :: l => tabsBefore 0 l

/-- Where a row of the given width starts if a word processor sets it between the margins `a` and `b`: from the right indent for a right-aligned paragraph, in the middle between the
indents for a centred one, else from the left indent (and the first line indent) with its tabs; tab stops are measured from the margin. -/
def rowStart (a b : ℚ) (q : Pose.Par) (first : Bool) (tabs : ℕ) (width : ℚ) : ℚ :=
  match q.align with
  | .right => b - q.indents.2.1 - width
  | .center => (a + q.indents.1 + (b - q.indents.2.1) - width) / 2
  | _ => a + afterTabs q.stops tabs (q.indents.1 + if first then q.indents.2.2 else 0)

/-- Where the rows of a paragraph start: each of its lines is a row, as wide as on the page. -/
def rowStarts (a b : ℚ) (q : Pose.Par) (ls : List (Lay.Ln Tok)) : List ℚ :=
  (((tabsBefore 0 q.content).zip ls).zipIdx).map fun x => rowStart a b q (x.2 = 0) x.1.1 (x.1.2.bbox.x1 - x.1.2.bbox.x0)

/-- Numbers that are the same up to `t`. -/
def Flush (t : ℚ) (xs : List ℚ) : Prop := ∀ x ∈ xs, ∀ y ∈ xs, |x - y| ≤ t

/-- The left edges of rows, without the first of three or more (which may be indented). -/
def leftEdges (ls : List (Lay.Ln Tok)) : List ℚ := (if 3 ≤ ls.length then ls.drop 1 else ls).map fun l => l.bbox.x0

/-- The right edges of rows, without the last of three or more (which may be short). -/
def rightEdges (ls : List (Lay.Ln Tok)) : List ℚ := (if 3 ≤ ls.length then ls.dropLast else ls).map fun l => l.bbox.x1

/-- The middle of a line. -/
def middle (l : Lay.Ln Tok) : ℚ := (l.bbox.x0 + l.bbox.x1) / 2

/-- The rows of a paragraph, set between `a` and `b`, against the lines on the page; `y` is where a row starts and `l` its line. -/
structure RowsInPlace (left right center a b : ℚ) (ls : List (Lay.Ln Tok)) (y : ℚ) (l : Lay.Ln Tok) : Prop where
  flushLeft : Flush left (ls.map fun l => l.bbox.x0) → |y - l.bbox.x0| ≤ max (2 * left) (max right ((left + right) / 2 + center)) + 1 / 10
  flushRight : 2 ≤ ls.length → Flush right (ls.map fun l => l.bbox.x1) → ¬ Flush left (leftEdges ls) → |y - l.bbox.x0| ≤ right + 1 / 20
  hanging : 3 ≤ ls.length → Flush left (leftEdges ls) → (∀ f s, ls[0]? = some f → ls[1]? = some s → f.bbox.x0 ≤ s.bbox.x0) → ¬ Flush right (rightEdges ls) →
    |y - l.bbox.x0| ≤ 2 * left + 1 / 20
  ragged : 2 ≤ ls.length → ¬ Flush left (leftEdges ls) → ¬ Flush right (rightEdges ls) → ∀ ε, (Flush center (ls.map middle) → ∀ m ∈ ls, |middle m - (a + b) / 2| ≤ ε) →
    |y - l.bbox.x0| ≤ max ε (21 / 20)

end Spec
