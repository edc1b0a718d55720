import Verif.Full
/-! # Specification: the style of table cells comes from drawings (C104) -/

namespace Spec
open Geom Py

variable {α : Type}

mutual
/-- Every cell of the tables in a block, at any depth. -/
def EachCell (P : Full.Cell → Prop) : Full.Blk α → Prop
  | .text _ _ => True
  | .table _ _ cs => EachCellOf P cs
def EachCellOf (P : Full.Cell → Prop) : List (Full.Cell × List (Full.Blk α)) → Prop
  | [] => True
  | (c, bs) :: cs => P c ∧ EachCellIn P bs ∧ EachCellOf P cs
/-- Every cell of the tables in a layout, at any depth. -/
def EachCellIn (P : Full.Cell → Prop) : List (Full.Blk α) → Prop
  | [] => True
  | b :: bs => EachCell P b ∧ EachCellIn P bs
end

/-- A border of this width is not visible, or a line of this width and direction is drawn. -/
def DrawnWidth (shapes : List Full.Sh) (horizontal : Bool) (w : ℚ) : Prop :=
  w = 0 ∨ ∃ s : Table.St, Full.Sh.stroke s ∈ shapes ∧ s.width = w ∧ (if horizontal then |s.y0 - s.y1| < 1 / 1000 else ¬ |s.y0 - s.y1| < 1 / 1000)

/-- The corners differ by at most `t`. -/
def CloseBox (t : ℚ) (a b : Rect) : Prop := |a.x0 - b.x0| ≤ t ∧ |a.y0 - b.y0| ≤ t ∧ |a.x1 - b.x1| ≤ t ∧ |a.y1 - b.y1| ≤ t

/-- The inside of a cell: without half the borders. -/
def insideOf (c : Full.CellInfo) : Rect := ⟨c.box.x0 + c.left / 2, c.box.y0 + c.top / 2, c.box.x1 - c.right / 2, c.box.y1 - c.bottom / 2⟩

/-- An area of this colour is drawn over (about) nine tenths of the inside of the cell. -/
def DrawnBehind (shapes : List Full.Sh) (c : Full.CellInfo) (color : ℕ) : Prop :=
  ∃ f, Full.Sh.fill f color ∈ shapes ∧ ∃ inner, CloseBox (1 / 10) inner (insideOf c) ∧ inner.area ≠ 0 ∧ 9 / 10 ≤ (f.inter inner).area / inner.area + 1 / 200

/-- The borders of a cell have widths of drawn lines, its background is a drawn area. -/
structure StyleDrawn (shapes : List Full.Sh) (c : Full.CellInfo) : Prop where
  top : DrawnWidth shapes true c.top
  bottom : DrawnWidth shapes true c.bottom
  left : DrawnWidth shapes false c.left
  right : DrawnWidth shapes false c.right
  background : ∀ k, c.bg = some k → DrawnBehind shapes c k

/-- A side of a cell at `pos` from `lo` to `hi` is not visible (`w = 0`), or one of the given lines of this width runs along (about) 5pt of it, at most `c` away (up to the rounding of
coordinates). -/
def DrawnAtSide (strokes : List Table.St) (c : ℚ) (horizontal : Bool) (pos lo hi w : ℚ) : Prop :=
  w = 0 ∨ ∃ s ∈ strokes, s.width = w ∧
    (if horizontal then |s.y0 - s.y1| < 1 / 1000 ∧ |s.y0 - pos| ≤ c + 1 / 10 ∧ 5 - 1 / 10 ≤ min hi s.x1 - max lo s.x0
     else |s.x0 - s.x1| < 1 / 1000 ∧ |s.x0 - pos| ≤ c + 1 / 10 ∧ 5 - 1 / 10 ≤ min hi s.y1 - max lo s.y0)

/-- All four sides. -/
structure SidesDrawn (strokes : List Table.St) (c : ℚ) (i : Full.CellInfo) : Prop where
  top : DrawnAtSide strokes c true i.box.y0 i.box.x0 i.box.x1 i.top
  bottom : DrawnAtSide strokes c true i.box.y1 i.box.x0 i.box.x1 i.bottom
  left : DrawnAtSide strokes c false i.box.x0 i.box.y0 i.box.y1 i.left
  right : DrawnAtSide strokes c false i.box.x1 i.box.y0 i.box.y1 i.right

/-- Positions within `c` of a common one are within `c` of each other (no ladders of lines close to each other). -/
def NoLadder (c : ℚ) (pos : Table.St → ℚ) (strokes : List Table.St) : Prop :=
  ∀ x ∈ strokes, ∀ y ∈ strokes, ∀ z ∈ strokes, |round1 (pos x) - round1 (pos y)| ≤ c → |round1 (pos y) - round1 (pos z)| ≤ c → |round1 (pos x) - round1 (pos z)| ≤ c

instance (c : ℚ) (pos : Table.St → ℚ) (strokes : List Table.St) : Decidable (NoLadder c pos strokes) := by unfold NoLadder; infer_instance

end Spec
