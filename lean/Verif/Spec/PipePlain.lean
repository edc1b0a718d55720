import Verif.Spec.Pipe
/-! # Specification: pages without tables -/

namespace Spec
open Geom Py Assign Pipe

/-- A page on which no table is found. -/
structure PlainPage {π : Type} (p : Page π) : Prop where
  raw : ∀ b ∈ p.raw, RawOK b
  plain : ∀ path box s bs, p.detect path box s bs = .ok []

/-- No two lines that stay in the flow overlap by the part `ov`. -/
def NoOverlap {π : Type} (c : Pipe.Cfg) (p : Page π) : Prop :=
  ∀ bs fs, beforeJoin c p.box p.raw = .ok (bs, fs) →
    ((bs.filter fun b => decide (b.bbox ≠ Rect.zero)).flatMap Lns.Blk.lines).Pairwise fun a b => ¬ OverlapBy c.ov a.bbox b.bbox ∧ ¬ OverlapBy c.ov b.bbox a.bbox

/-- `a` ends before `b` starts, on the way down the page. -/
def Above (a b : Rect) : Prop := a.y1 ≤ b.y0

/-- The blocks of a page to be converted. -/
def inBlocks {π : Type} (ws : Char → Bool) (p : Page π) : List Raw := p.raw.filter fun b => decide (ToConvert ws p.box b)

/-- One column of horizontal text: blocks one below the other, in each block lines one below the other; lines know their block. -/
structure OneColumn {π : Type} (c : Pipe.Cfg) (p : Page π) : Prop where
  blocks : (inBlocks c.ws p).Pairwise fun a b => Above a.bbox b.bbox ∨ Above b.bbox a.bbox
  lines : ∀ b ∈ inBlocks c.ws p, b.lines.Pairwise fun a b => Above a.bbox b.bbox ∨ Above b.bbox a.bbox
  horizontal : ∀ b ∈ inBlocks c.ws p, ∀ l ∈ b.lines, l.dir = .leftRight
  own : ∀ b ∈ inBlocks c.ws p, ∃ id, ∀ l ∈ b.lines, l.pid = some id
  ids : (inBlocks c.ws p).Pairwise fun a b => ∀ l ∈ a.lines, ∀ m ∈ b.lines, l.pid ≠ m.pid
  floats : ∀ bs fs, beforeJoin c p.box p.raw = .ok (bs, fs) → fs = []

end Spec
