import Verif.Spec.Geom
import Verif.Store
/-! # Specification for store/restore

`Intact` says what holds of the blocks of a parsed page: boxes are rounded to 0.1, the box of a line (text block) is the one
accumulated from its spans (lines), rows lie in their table and cells in their row, a merged-away cell is an empty one. Two of
the requirements are restrictions and not invariants of parsing: fonts whose parsed name parses to itself, and line boxes equal to
those of their spans (a line whose span was split at a shape may have a larger one); see the refutations in `Props/Store.lean`. -/

namespace Spec
open Geom Store

/-- A character with a rounded box. -/
def CharOk (c : Chr) : Prop := Tenths c.bbox

/-- The font name is not a placeholder, and the parsed name parses to itself. -/
def FontOk (f : List Char) : Prop := ¬ "UNNAMED".toList <:+: (Text.fontOf f).map Char.toUpper ∧ Text.fontOf (Text.fontOf f) = Text.fontOf f

/-- A span (text or image). -/
def ItemOk : Item → Prop
  | .text s => Tenths s.bbox ∧ s.bbox ≠ Rect.zero ∧ (∀ c ∈ s.chars, CharOk c) ∧ FontOk s.font
  | .image i => Tenths i.bbox ∧ i.bbox ≠ Rect.zero

/-- A line. -/
def LineOk (l : Line) : Prop :=
  l.bbox ≠ Rect.zero ∧ (∀ i ∈ l.spans, ItemOk i) ∧ l.bbox = (l.spans.map Item.bbox).foldl Coll.unionBbox Rect.zero

/-- An alignment is one of the members of `TextAlignment`. -/
def AlignOk (f : Fmt) : Prop := -1 ≤ f.alignment ∧ f.alignment ≤ 4

instance (f : Fmt) : Decidable (AlignOk f) := by unfold AlignOk; infer_instance

/-- The box `b` is rounded, not empty, and includes the non-empty ones among `l`. -/
def BoxOk (b : Rect) (l : List Rect) : Prop := Tenths b ∧ Proper b ∧ ∀ c ∈ l, c.isEmpty ∨ Covers b c

mutual
/-- A block of the flow: text or table. -/
def Intact : Block → Prop
  | .text inl b f lines => inl = false ∧ AlignOk f ∧ b ≠ Rect.zero ∧ (∀ l ∈ lines, LineOk l) ∧
      b = (lines.map Line.bbox).foldl Coll.unionBbox Rect.zero
  | .table _ b f rows => AlignOk f ∧ BoxOk b (rows.map RowOf.bbox) ∧ RowsIntact rows
  | .image _ _ _ => False
def RowsIntact : List (RowOf (CellOf Block)) → Prop
  | [] => True
  | r :: rs => RowIntact r ∧ RowsIntact rs
def RowIntact : RowOf (CellOf Block) → Prop
  | ⟨b, _, cells⟩ => BoxOk b (cells.map CellOf.bbox) ∧ CellsIntact cells
def CellsIntact : List (CellOf Block) → Prop
  | [] => True
  | c :: cs => CellIntact c ∧ CellsIntact cs
def CellIntact : CellOf Block → Prop
  | ⟨b, bg, bc, bw, m, blocks⟩ =>
    (b = Rect.zero ∧ bg = none ∧ bc = [0, 0, 0, 0] ∧ bw = [0, 0, 0, 0] ∧ m = (1, 1) ∧ blocks = []) ∨
    (b ≠ Rect.zero ∧ Tenths b ∧ BlocksIntact blocks)
def BlocksIntact : List Block → Prop
  | [] => True
  | b :: bs => Intact b ∧ BlocksIntact bs
end

mutual
/-- The same block with every font name replaced by the parsed one and every table taken as a lattice table: all that storing
forgets. -/
def Kept : Block → Block
  | .text inl b f lines => .text inl b f (lines.map Line.store)
  | .table _ b f rows => .table false b f (KeptRows rows)
  | .image float f i => .image float f i
def KeptRows : List (RowOf (CellOf Block)) → List (RowOf (CellOf Block))
  | [] => []
  | r :: rs => KeptRow r :: KeptRows rs
def KeptRow : RowOf (CellOf Block) → RowOf (CellOf Block)
  | ⟨b, h, cells⟩ => ⟨b, h, KeptCells cells⟩
def KeptCells : List (CellOf Block) → List (CellOf Block)
  | [] => []
  | c :: cs => KeptCell c :: KeptCells cs
def KeptCell : CellOf Block → CellOf Block
  | ⟨b, bg, bc, bw, m, blocks⟩ => ⟨b, bg, bc, bw, m, KeptBlocks blocks⟩
def KeptBlocks : List Block → List Block
  | [] => []
  | b :: bs => Kept b :: KeptBlocks bs
end

/-- The page is not rotated. -/
def Upright (E : Env) : Prop := (∀ r, E.rot r = r) ∧ ∀ d, E.rotDir d = d

end Spec
