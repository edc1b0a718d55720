import Verif.Spec.Draw
import Verif.Spec.FullText
/-! # Specification: a page of text in the document (C111) -/

namespace Spec
open Geom Py Pipe

/-- Lines of a block without blanks at their ends. -/
def bareLines (ws : Char → Bool) (b : Raw) : List (Lay.Ln Tok) := b.lines.map fun l => (stripLine ws l).1

/-- The text of a page: its blocks, lines without blanks at their ends, boxes around their lines. -/
def bareBlocks {π : Type} (ws : Char → Bool) (p : Whole.Page π) : List (Full.Blk Tok) :=
  (pageBlocks ws p).map fun b => .text (Coll.bbox ((bareLines ws b).map fun l => l.bbox)) (bareLines ws b)

/-- Horizontal text, blocks one below the other, in each block lines one below the other; lines know the block they were extracted with. -/
structure ColumnText (bs : List Raw) : Prop where
  horizontal : ∀ b ∈ bs, ∀ l ∈ b.lines, l.dir = .leftRight
  own : ∀ b ∈ bs, ∃ id, ∀ l ∈ b.lines, l.pid = some id
  ids : bs.Pairwise fun a b => ∀ l ∈ a.lines, ∀ m ∈ b.lines, l.pid ≠ m.pid
  clear : bs.Pairwise fun a b => Clears a.bbox b.bbox
  column : ∀ b ∈ bs, b.lines.Pairwise fun l m => Above l.bbox m.bbox ∨ Above m.bbox l.bbox

/-- A page of text in one column, with drawings that are no table, within the width of the working area of the page and not set in two columns. -/
structure TextPage {π : Type} (c : Whole.Cfg) (p : Whole.Page π) : Prop where
  raw : ∀ b ∈ p.raw, RawOK b
  text : ColumnText (pageBlocks c.ws p)
  floats : ∀ bs fs, beforeJoin c.pipe p.box p.raw = .ok (bs, fs) → fs = []
  drawn : Harmless c.full.conn (bareBlocks c.ws p) p.shapes
  within : ∀ r ∈ pageBoxes (bareBlocks c.ws p) p.shapes, p.work.x0 ≤ r.x0 ∧ r.x1 ≤ p.work.x1
  columns : NotTwoColumns ((p.work.x0 + p.work.x1) / 2) (pageBoxes (bareBlocks c.ws p) p.shapes)

end Spec

namespace Spec
open Geom Py Pipe

/-- The lines and links that can be seen on the page, as shapes. -/
def seenShapes {π : Type} (c : Draw.Cfg) (p : Draw.Page π) : List Full.Sh :=
  ((p.drawings.flatMap drawnStrokes).filter fun s => Visible p.box c.minDim s.bbox).map Full.Sh.stroke ++
    ((p.links.map Rect.round).filter fun b => Visible p.box c.minDim b).map Full.Sh.link

/-- The page with the lines and links that can be seen. -/
def asSeen {π : Type} (c : Draw.Cfg) (p : Draw.Page π) : Whole.Page π := ⟨p.box, p.work, p.props, p.raw, seenShapes c p, p.ids, p.styled, p.fmt⟩

/-- A page of text with lines drawn by commands (see `TextPage`), no two of them much the same. -/
structure DrawnText {π : Type} (c : Draw.Cfg) (p : Draw.Page π) : Prop where
  text : TextPage c.whole (asSeen c p)
  page : Proper p.box
  straight : ∀ d ∈ p.drawings, Straight d ∧ (PointOn p.box d ∨ ∀ s ∈ drawnStrokes d, ¬ Visible p.box c.minDim s.bbox)
  links : ∀ l ∈ p.links, l.Valid
  apart : ((p.drawings.flatMap drawnStrokes).filter fun s => Visible p.box c.minDim s.bbox).Pairwise (Distinct c.threshold)

end Spec
