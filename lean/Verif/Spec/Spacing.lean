import Verif.Spacing
/-! # How a word processor stacks what was written

A paragraph takes its space before, its rows with the exact line spacing, and its space after; an inline image its own
height; a table the blank paragraph written above it (see `Docx.spacer`), its rows and its outer borders. -/

namespace Spec
open Spacing Geom

/-- What the outer border adds to a table above and below: half its width. -/
def halfBorder (b : VB) : ℚ :=
  match b.kind with
  | .table => b.topBorder / 2
  | _ => 0

/-- Height of the blank paragraph above a table; `pre`: the previous block is a table. -/
def spacerHeight (pre : Bool) (before : ℚ) : ℚ :=
  if Docx.minLineSpacing ≤ before ∨ pre = true then (Py.trunc (10 * before) : ℚ) / 10 else 0

/-- Height of a block in the docx up to the end of its content. -/
def contentHeight (h : Bool) (pre : Bool) (b : VB) (s : Sp) : ℚ :=
  match b.kind with
  | .text => s.before + b.rows * s.line
  | .image => s.before + (hi h b.bbox - lo h b.bbox)
  | .table => spacerHeight pre s.before + (hi h b.bbox - lo h b.bbox) + 2 * halfBorder b

/-- Ends of the contents of all blocks in the docx, measured from the top of the page's working area. -/
def ends (h : Bool) (pos : ℚ) (pre : Bool) : List (VB × Sp) → List ℚ
  | [] => []
  | (b, s) :: l =>
    let e := pos + contentHeight h pre b s
    e :: ends h (e + s.after) (decide (b.kind = .table)) l

/-- Whether the blocks are stacked as a flow: images and tables start below the end of the previous block (a table after a
table at least 1pt, a first table at the top or at least 0.7pt below it), inside the page; paragraphs have the direction of the page, and those with one row are as high
as their first line. `refPos`: end of the previous block. -/
def Stacked (h : Bool) (page : Rect) (refPos : ℚ) : Option Kind → List VB → Prop
  | _, [] => True
  | prev, b :: bs =>
    (match b.kind with
      | .text => b.horizontal = h ∧ 0 < b.rows ∧ (b.rows = 1 → hi h b.first.bbox - lo h b.first.bbox = hi h b.bbox - lo h b.bbox)
      | .image => refPos ≤ lo h b.bbox ∧ hi h b.bbox ≤ hi h page
      | .table => hi h b.bbox ≤ hi h page ∧ (match prev with
        | none => lo h b.bbox - halfBorder b = refPos ∨ refPos + 7 / 10 ≤ lo h b.bbox - halfBorder b
        | some .table => refPos + 1 ≤ lo h b.bbox - halfBorder b
        | some _ => refPos ≤ lo h b.bbox - halfBorder b)) ∧
    Stacked h page (hi h b.bbox + halfBorder b) (some b.kind) bs

end Spec
