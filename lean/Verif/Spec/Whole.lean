import Verif.Whole
import Verif.Spec.FullTable
/-! # Specification: a drawn table in the document (C108) -/

namespace Spec
open Geom Py Pipe

/-- Visible characters and pictures of contents of a document. -/
def shownIn (ws : Char → Bool) (ts : List (Tree Par)) : List Tok := seen ws ((leaves ts).flatMap parToks)

/-- The contents are paragraphs, and show exactly the given lines of the page, from top to bottom. -/
structure ShowsLines (ws : Char → Bool) (ts : List (Tree Par)) (ls : List (Lay.Ln Tok)) : Prop where
  text : ∀ t ∈ ts, ∃ p, t = .text p
  lines : ∃ L : List (Lay.Ln Tok), L.Perm ls ∧ (L.Pairwise fun l m => Above l.bbox m.bbox) ∧ shownIn ws ts = L.flatMap fun l => seen ws (Lay.lineItems l)

/-- Blocks of a page supposed to be converted. -/
def pageBlocks {π : Type} (ws : Char → Bool) (p : Whole.Page π) : List Raw := p.raw.filter fun b => decide (ToConvert ws p.box b)

/-- One below the other, or side by side with more than `mg` between. -/
def Spaced (mg : ℚ) (a b : Rect) : Prop := Above a b ∨ Above b a ∨ a.x1 + mg < b.x0 ∨ b.x1 + mg < a.x0

/-- Horizontal text on a page with a grid: blocks above it, below it, or in it. -/
structure TextOn (mg : ℚ) (X Y : ℕ → ℚ) (r k : ℕ) (W : ℚ) (bs : List Raw) : Prop where
  horizontal : ∀ b ∈ bs, ∀ l ∈ b.lines, l.dir = .leftRight
  /-- Lines know the block they were extracted with. -/
  own : ∀ b ∈ bs, ∃ id, ∀ l ∈ b.lines, l.pid = some id
  ids : bs.Pairwise fun a b => ∀ l ∈ a.lines, ∀ m ∈ b.lines, l.pid ≠ m.pid
  spaced : (bs.flatMap Lns.Blk.lines).Pairwise fun l m => Spaced mg l.bbox m.bbox
  place : ∀ b ∈ bs, b.bbox.y1 < Y 0 - W / 2 ∨ Y r + W / 2 < b.bbox.y0 ∨ Covers (gridBox X Y r k) b.bbox
  /-- Outside the grid: blocks clear of each other, lines one below the other. -/
  clear : bs.Pairwise fun a b => ¬ Covers (gridBox X Y r k) a.bbox → ¬ Covers (gridBox X Y r k) b.bbox → Clears a.bbox b.bbox
  column : ∀ b ∈ bs, ¬ Covers (gridBox X Y r k) b.bbox → b.lines.Pairwise fun l m => Above l.bbox m.bbox ∨ Above m.bbox l.bbox
  /-- In the grid: each line in a cell; within a cell lines are one below the other, those of one block all above those of another. -/
  inCell : ∀ b ∈ bs, Covers (gridBox X Y r k) b.bbox → ∀ l ∈ b.lines, ∃ i < r, ∃ j < k, Covers (gridCell X Y i j) l.bbox
  cellColumn : (bs.flatMap Lns.Blk.lines).Pairwise fun l m => ∀ i < r, ∀ j < k, Covers (gridCell X Y i j) l.bbox → Covers (gridCell X Y i j) m.bbox →
    Above l.bbox m.bbox ∨ Above m.bbox l.bbox
  order : bs.Pairwise fun a b => ∀ i < r, ∀ j < k,
    (∀ l ∈ a.lines, ∀ m ∈ b.lines, Covers (gridCell X Y i j) l.bbox → Covers (gridCell X Y i j) m.bbox → l.bbox.y1 < m.bbox.y0) ∨
    (∀ l ∈ a.lines, ∀ m ∈ b.lines, Covers (gridCell X Y i j) l.bbox → Covers (gridCell X Y i j) m.bbox → m.bbox.y1 < l.bbox.y0)

/-- A page with one drawn grid and text. The last condition: a block of the cleaned-up page (blocks side by side are joined) that is nearly in one cell is in that cell. -/
structure GridPage {π : Type} (c : Whole.Cfg) (X Y : ℕ → ℚ) (r k : ℕ) (W : ℚ) (p : Whole.Page π) : Prop where
  raw : ∀ b ∈ p.raw, RawOK b
  text : TextOn c.mg X Y r k W (pageBlocks c.ws p)
  lines : ∀ b ∈ pageBlocks c.ws p, ∀ l ∈ b.lines, p.work.x0 ≤ l.bbox.x0 ∧ l.bbox.x1 ≤ p.work.x1
  drawn : ∃ others, DrawnAround c.full.conn X Y r k W (((pageBlocks c.ws p).flatMap Lns.Blk.lines).map fun l => l.bbox) others p.shapes
  shapes : ∀ s ∈ p.shapes, p.work.x0 ≤ s.bbox.x0 ∧ s.bbox.x1 ≤ p.work.x1
  left : X 0 + W / 2 < (p.work.x0 + p.work.x1) / 2
  right : (p.work.x0 + p.work.x1) / 2 ≤ X k + W / 2
  floats : ∀ bs fs, beforeJoin c.pipe p.box p.raw = .ok (bs, fs) → fs = []
  whole : ∀ js fs, cleanUp c.pipe p.box p.raw = .ok (js, fs) → ∀ b ∈ js, ∀ i < r, ∀ j < k, Mostly (gridCell X Y i j) b.bbox → Covers (gridCell X Y i j) b.bbox

/-- The contents of a section: text above `y0`, a table of `r` rows of `k` cells at `X`, `Y`, and text below; above, in each cell and below exactly the given lines that are
there, from top to bottom. -/
def TableShown (ws : Char → Bool) (X Y : ℕ → ℚ) (r k : ℕ) (ls : List (Lay.Ln Tok)) (ts : List (Tree Par)) : Prop :=
  ∃ above rows below, ts = above ++ .table rows :: below ∧
    ShowsLines ws above (ls.filter fun l => l.bbox.y1 < Y 0) ∧ ShowsLines ws below (ls.filter fun l => Y r < l.bbox.y0) ∧
    rows.length = r ∧ ∀ i < r, ∃ row, rows[i]? = some row ∧ row.length = k ∧
      ∀ j < k, ∃ c, row[j]? = some (some c) ∧ ShowsLines ws c (ls.filter fun l => Covers (gridCell X Y i j) l.bbox)

/-- The spacing of a grid is large enough for the settings. -/
structure WideFor (c : Full.Cfg) (W gap : ℚ) : Prop where
  conn : W + 2 * c.conn ≤ gap
  border : c.base.maxW + 1 / 20 ≤ gap
  clear : c.base.clear ≤ gap
  width : W + 3 / 10 ≤ gap

/-- The settings used make sense. -/
structure Sane (c : Whole.Cfg) : Prop where
  blank : c.ws ' ' = true
  order : ∀ l, (c.full.base.lay.iter l).Perm l
  tol : 0 < c.full.base.lay.tol
  overlap : 1 / 1000000 < c.ov
  merging : 0 ≤ c.mg
  conn : 0 ≤ c.full.conn
  clear : 0 ≤ c.full.base.clear
  border : 1 / 20 ≤ c.full.base.maxW

end Spec
