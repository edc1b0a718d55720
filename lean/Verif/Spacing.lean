import Verif.Geom
import Verif.Docx
/-! # Vertical spacing

Models `Blocks.parse_spacing` (page/Blocks.py L323-413, vertical part) and `TextBlock.parse_line_spacing`
(text/TextBlock.py L210-252). "Vertical" means across the text direction: the y-axis for horizontal text, the x-axis for
vertical text. -/

namespace Spacing
open Geom

/-- Block types that matter here. -/
inductive Kind where
  | text | image | table
  deriving DecidableEq, Repr

/-- A block: kind, box, lines of a text block (`first :: rest`, a text block always has a line), width of the top border of a
table, whether the text of the block is horizontal. -/
structure VB where
  kind : Kind
  bbox : Rect
  first : El := ⟨Rect.zero, .leftRight⟩
  rest : List El := []
  topBorder : ℚ := 0
  horizontal : Bool := true

/-- The spacing attributes `before_space`, `after_space`, `line_space` (common/Block.py L37-39, all `0.0` at first). -/
structure Sp where
  before : ℚ
  after : ℚ
  line : ℚ
  deriving DecidableEq, Repr

/-- Number of rows (TextBlock.py L220-228): a line that is not in the row of its predecessor starts a new row. -/
def countRows : Option El → List El → ℕ
  | _, [] => 0
  | ref, l :: ls =>
    (if (match ref with
      | none => false
      | some r => l.inSameRow r) then 0 else 1) + countRows (some l) ls

/-- Rows of a text block. -/
def VB.rows (b : VB) : ℕ := countRows none (b.first :: b.rest)

/-- Position across the text direction: `bbox[idx]`, `bbox[idx+2]`. -/
def lo (h : Bool) (r : Rect) : ℚ := (El.ext (!h) r).1
def hi (h : Bool) (r : Rect) : ℚ := (El.ext (!h) r).2

/-- `TextBlock.parse_line_spacing` (TextBlock.py L210-252) with the current `before_space`: new `before_space` and
`line_space`. `h`: the text of the block is horizontal. -/
def parseLineSpacing (h : Bool) (b : VB) (before : ℚ) : ℚ × ℚ :=
  let count : ℚ := b.rows
  let firstHeight := hi h b.first.bbox - lo h b.first.bbox
  let blockHeight := hi h b.bbox - lo h b.bbox
  let line := if 1 < b.rows then (blockHeight - firstHeight) / (count - 1) else blockHeight
  let before := before + (firstHeight - line)
  if before < 0 then (0, line + before / count) else (before, line)

/-- Half of the top border for tables (Blocks.py L365-371). -/
def VB.dw (b : VB) : ℚ := if b.kind = .table then b.topBorder / 2 else 0

/-- Set `after_space` of the last processed block. -/
def setAfter (a : ℚ) : List (VB × Sp) → List (VB × Sp)
  | [] => []
  | [(b, s)] => [(b, { s with after := a })]
  | x :: y :: l => x :: setAfter a (y :: l)

/-- The loop of `parse_spacing` (L348-404). `acc`: blocks processed so far (its last element is `ref_block`; for the first
block `ref_block` is the block itself). -/
def loop (h : Bool) (page : Rect) (acc : List (VB × Sp)) (refPos : ℚ) : List VB → List (VB × Sp)
  | [] => acc
  | b :: bs =>
    let start := lo h b.bbox - b.dw
    let dy := max (hi h b.bbox - hi h page) 0
    let para := max (start - refPos - dy) 0
    let next := hi h b.bbox + b.dw
    match b.kind with
    | .text =>
      let r := parseLineSpacing b.horizontal b (start - refPos)
      loop h page (acc ++ [(b, ⟨r.1, 0, r.2⟩)]) next bs
    | .image => loop h page (acc ++ [(b, ⟨para, 0, 0⟩)]) next bs
    | .table =>
      match acc.getLast? with
      | none => loop h page (acc ++ [(b, ⟨max para 0, 0, 0⟩)]) next bs
      | some (r, _) =>
        if r.kind = .table then loop h page (acc ++ [(b, ⟨max para 1, 0, 0⟩)]) next bs
        else loop h page (setAfter para acc ++ [(b, ⟨0, 0, 0⟩)]) next bs

/-- `Blocks.parse_spacing` (L320-404): the reference position of the first block is the top of the page's working area. -/
def parseSpacing (h : Bool) (page : Rect) (blocks : List VB) : List (VB × Sp) := loop h page [] (lo h page) blocks

end Spacing
