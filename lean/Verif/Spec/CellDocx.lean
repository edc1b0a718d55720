import Verif.CellDocx
import Verif.Spec.Table
/-! # Specification vocabulary for the cells of docx tables -/

namespace Spec
open CellDocx
variable {β : Type}

/-- Width of a parsed cell's border on a side. -/
def borderWidth (p : Parsed β) : Edge → ℚ
  | .start => p.width.left
  | .top => p.width.top
  | .end_ => p.width.right
  | .bottom => p.width.bottom

/-- Colour of a parsed cell's border on a side. -/
def borderColor (p : Parsed β) : Edge → ℕ
  | .start => p.color.left
  | .top => p.color.top
  | .end_ => p.color.right
  | .bottom => p.color.bottom

/-- Six hexadecimal digits for an RGB colour. -/
def HexOf (s : List ℕ) (c : ℕ) : Prop := s.length = 6 ∧ (∀ d ∈ s, d < 16) ∧ s.foldl (fun acc d => 16 * acc + d) 0 = c

/-- The borders written are those of the cell: each side with a border of non-zero width is there once, its size in eighths of a
point, its colour in hexadecimal; no other side is there. -/
structure BordersOf (p : Parsed β) (es : List (Edge × Line)) : Prop where
  once : (es.map Prod.fst).Nodup
  exact : ∀ e l, (e, l) ∈ es ↔ borderWidth p e ≠ 0 ∧ l.sz = 8 * borderWidth p e ∧ HexOf l.color (borderColor p e)

/-- Colours of a parsed cell are RGB values. -/
def ColorsRGB (p : Parsed β) : Prop := (∀ e, borderColor p e < 2 ^ 24) ∧ ∀ b ∈ p.bg, b < 2 ^ 24

/-- The cells of a table tile the grid: each has at least one square, they stay inside, and each square belongs to exactly one. -/
def CellsTile (r c : ℕ) (cells : ℕ → ℕ → Option (Parsed β)) : Prop :=
  (∀ i < r, ∀ j < c, ∀ p, cells i j = some p → 1 ≤ p.span.1 ∧ 1 ≤ p.span.2) ∧ Tiles r c fun i j => (cells i j).map (·.span)

/-- Position `q` belongs to the cell at `p` with the given span. -/
def InSpan (p : ℕ × ℕ) (span : ℕ × ℕ) (q : ℕ × ℕ) : Prop :=
  p.1 ≤ q.1 ∧ q.1 < p.1 + span.1 ∧ p.2 ≤ q.2 ∧ q.2 < p.2 + span.2

instance (p s q : ℕ × ℕ) : Decidable (InSpan p s q) := by unfold InSpan; infer_instance

/-- Place of an element in the sequence of the schema (`CT_TcPr`: borders, shading, margins, text direction). -/
def TcPr.place : TcPr → ℕ
  | .borders _ => 0
  | .shd _ => 1
  | .mar _ _ => 2
  | .dir => 3

/-- The cell properties are valid: each element at most once, in the order of the schema. -/
def ValidTcPr (l : List TcPr) : Prop := l.Pairwise fun a b => TcPr.place a < TcPr.place b

/-- A border size the format admits: a whole number of eighths of a point from 2 to 96. -/
def ValidSize (sz : ℚ) : Prop := ∃ k : ℕ, sz = k ∧ 2 ≤ k ∧ k ≤ 96

end Spec
