import Verif.Pose
/-! # Specification for C125: vertical text and the same text turned to horizontal -/

namespace Spec
open Geom Pipe

/-- A box after a quarter turn clockwise of a page of height `H`: the point `(x, y)` goes to `(H - y, x)`. Text that runs upwards then runs to the right. -/
def turnedBox (H : ℚ) (r : Rect) : Rect := ⟨H - r.y1, r.x0, H - r.y0, r.x1⟩

/-- A block of vertical text after that turn: boxes turned, the text of its lines horizontal. -/
def turnedBlk (H : ℚ) : Deco.Blk → Deco.Blk
  | .text b ls s => .text (turnedBox H b) (ls.map fun l => { l with bbox := turnedBox H l.bbox, dir := .leftRight })
      ⟨turnedBox H s.bbox, s.lines.map fun t => { t with bbox := turnedBox H t.bbox, horizontal := true }⟩
  | .table b g cs => .table b g cs

/-- A text block all of whose lines run upwards and have a width. -/
def VerticalBlk : Deco.Blk → Prop
  | .text _ ls s => ls ≠ [] ∧ (∀ l ∈ ls, l.dir = .bottomTop) ∧ ∀ t ∈ s.lines, t.bbox.x0 < t.bbox.x1
  | .table _ _ _ => False

/-- What a paragraph contains besides tabs. -/
def withoutTabs {α : Type} (l : List (Para.Out α)) : List (Para.Out α) := l.filter fun
  | .tab => false
  | _ => true

/-- Two paragraphs of the same look, but for the first line indent which is opposite: alignment, start of the first row, right indent, tab stops, distances, and content
without tabs are the same. -/
structure TurnedPar (q p : Pose.Par) : Prop where
  align : q.align = p.align
  start : q.indents.1 + q.indents.2.2 = p.indents.1 + p.indents.2.2
  right : q.indents.2.1 = p.indents.2.1
  first : q.indents.2.2 = -p.indents.2.2
  stops : q.stops = p.stops
  space : q.space = p.space
  content : withoutTabs q.content = withoutTabs p.content

/-- As `TurnedPar`, for blocks. -/
def TurnedLook : Pose.Blk → Pose.Blk → Prop
  | .text q, .text p => TurnedPar q p
  | _, _ => False

end Spec
