import Verif.Spec.Pose
import Verif.Spec.Styled
/-! # Specification: where a page of text is in the document (C121, C122) -/

namespace Spec
open Geom Py Pipe

/-- Pictures and characters of a line, in order. -/
def entries (items : List Text.Item) : List ((Rect × ℕ) ⊕ Text.Chr) := items.flatMap fun
  | .image b n => [.inl (b, n)]
  | .text s => s.chars.map .inr

/-- A paragraph shows lines: each of them, in order, with its characters and pictures. -/
def ShowsRows (q : Pose.Par) (ls : List (Lay.Ln Tok)) : Prop :=
  (lineTexts q.content).map entries = ls.map fun l => entries (l.spans.map fun s => toItem s.2)

/-- The height of a paragraph up to the bottom of its last row as a word processor sets it: the space before it, and a row for each of its lines. -/
def setHeight (q : Pose.Par) : ℚ := q.space.before + (lineTexts q.content).length * q.space.line

/-- The bottoms of paragraphs set one below the other from `y` on, with the space after each. -/
def bottoms (y : ℚ) : List Pose.Par → List ℚ
  | [] => []
  | q :: qs => (y + setHeight q) :: bottoms (y + setHeight q + q.space.after) qs

end Spec
