import Verif.Spec.FullColumns
import Verif.Spec.Whole
/-! # Specification: pages in two columns, from the extracted page to the document (C124) -/

namespace Spec
open Geom Py Pipe

/-- Horizontal text in two columns left and right of `X`, with headings and notes across. -/
structure ColumnsOn (mg X : ℚ) (bs : List Raw) : Prop where
  horizontal : ∀ b ∈ bs, ∀ l ∈ b.lines, l.dir = .leftRight
  /-- Lines know the block they were extracted with. -/
  own : ∀ b ∈ bs, ∃ id, ∀ l ∈ b.lines, l.pid = some id
  ids : bs.Pairwise fun a b => ∀ l ∈ a.lines, ∀ m ∈ b.lines, l.pid ≠ m.pid
  spaced : (bs.flatMap Lns.Blk.lines).Pairwise fun l m => Spaced mg l.bbox m.bbox
  /-- A block is in the columns, or a heading or note: across the centre, and more than 5pt above what is in the columns, or below it. -/
  place : ∀ b ∈ bs, (∀ l ∈ b.lines, LeftOf X l.bbox ∨ RightOf X l.bbox) ∨
    (∀ l ∈ b.lines, Across X l.bbox) ∧ ((∀ a ∈ bs, (∃ m ∈ a.lines, ¬ Across X m.bbox) → b.bbox.y1 + 5 < a.bbox.y0) ∨ (∀ a ∈ bs, (∃ m ∈ a.lines, ¬ Across X m.bbox) → a.bbox.y1 + 5 < b.bbox.y0))
  /-- Headings and notes are one below the other, and so are their lines. -/
  clear : bs.Pairwise fun a b => (∀ l ∈ a.lines, Across X l.bbox) → (∀ l ∈ b.lines, Across X l.bbox) → Clears a.bbox b.bbox
  column : ∀ b ∈ bs, (∀ l ∈ b.lines, Across X l.bbox) → b.lines.Pairwise fun l m => Above l.bbox m.bbox ∨ Above m.bbox l.bbox
  /-- There is something in both columns. -/
  left : ∃ b ∈ bs, ∃ l ∈ b.lines, LeftOf X l.bbox
  right : ∃ b ∈ bs, ∃ l ∈ b.lines, RightOf X l.bbox
  /-- Within a column, lines are one below the other, those of one block all above those of another. -/
  leftLines : (bs.flatMap Lns.Blk.lines).Pairwise fun l m => LeftOf X l.bbox → LeftOf X m.bbox → Above l.bbox m.bbox ∨ Above m.bbox l.bbox
  rightLines : (bs.flatMap Lns.Blk.lines).Pairwise fun l m => RightOf X l.bbox → RightOf X m.bbox → Above l.bbox m.bbox ∨ Above m.bbox l.bbox
  leftOrder : bs.Pairwise fun a b => DownIn (LeftOf X) (.text a.bbox a.lines) (.text b.bbox b.lines)
  rightOrder : bs.Pairwise fun a b => DownIn (RightOf X) (.text a.bbox a.lines) (.text b.bbox b.lines)

/-- The centre of the page, between the margins. -/
def centre {π : Type} (p : Whole.Page π) : ℚ := (p.work.x0 + p.work.x1) / 2

/-- A page of text in two columns, perhaps with links. -/
structure ColumnsPage {π : Type} (c : Whole.Cfg) (p : Whole.Page π) : Prop where
  raw : ∀ b ∈ p.raw, RawOK b
  text : ColumnsOn c.mg (centre p) (pageBlocks c.ws p)
  /-- Headings and notes go across the centre also without the blanks at their ends. -/
  solid : ∀ b ∈ pageBlocks c.ws p, ∀ l ∈ b.lines, Across (centre p) l.bbox → Across (centre p) (stripLine c.ws l).1.bbox
  lines : ∀ b ∈ pageBlocks c.ws p, ∀ l ∈ b.lines, p.work.x0 ≤ l.bbox.x0 ∧ l.bbox.x1 ≤ p.work.x1
  wide : p.work.x0 + 42 / 5 ≤ p.work.x1
  /-- The shapes are links on lines; one on a heading or note goes across the centre too. -/
  links : ∀ s ∈ p.shapes, ∃ r, s = .link r ∧ RealBox r ∧ ∃ b ∈ pageBlocks c.ws p, ∃ l ∈ b.lines, Covers (stripLine c.ws l).1.bbox r ∧ (Across (centre p) l.bbox → Across (centre p) r)
  floats : ∀ bs fs, beforeJoin c.pipe p.box p.raw = .ok (bs, fs) → fs = []
  /-- A block of the cleaned-up page (blocks side by side are joined) with lines in both columns reaches at least a tenth of its width into either. -/
  reach : ∀ js fs, cleanUp c.pipe p.box p.raw = .ok (js, fs) → ∀ b ∈ js, ∀ l ∈ b.lines, ∀ m ∈ b.lines, LeftOf (centre p) l.bbox → RightOf (centre p) m.bbox →
    (b.bbox.x1 - b.bbox.x0) / 10 + 1 / 10 ≤ centre p - b.bbox.x0 ∧ (b.bbox.x1 - b.bbox.x0) / 10 + 1 / 10 ≤ b.bbox.x1 - centre p

/-- The contents of a section: the headings, a table of two cells, the notes. The left cell shows exactly the given lines left of `X`, from top to bottom, the right one those right of it;
before the table the lines across `X` that are above all lines in the columns, and after it those below them. -/
def ColumnsShown (ws : Char → Bool) (X : ℚ) (ls : List (Lay.Ln Tok)) (ts : List (Tree Par)) : Prop :=
  ∃ above left right below, ts = above ++ .table [[some left, some right]] :: below ∧
    ShowsLines ws left (ls.filter fun l => LeftOf X l.bbox) ∧ ShowsLines ws right (ls.filter fun l => RightOf X l.bbox) ∧
    ShowsLines ws above (ls.filter fun l => Across X l.bbox ∧ ∀ m ∈ ls, ¬ Across X m.bbox → l.bbox.y1 < m.bbox.y0) ∧
    ShowsLines ws below (ls.filter fun l => Across X l.bbox ∧ ∀ m ∈ ls, ¬ Across X m.bbox → m.bbox.y1 < l.bbox.y0)

end Spec
