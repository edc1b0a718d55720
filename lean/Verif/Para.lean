import Verif.Num
import Verif.Py
import Verif.Sort
/-! # Horizontal layout and content of a paragraph

Models `TextBlock.parse_horizontal_spacing`, `_internal_alignment`, `_external_alignment` (text/TextBlock.py L151-207, L311-406),
the paragraph format written by `TextBlock.make_docx` (L255-307), `Lines.parse_line_break` and `Lines.make_docx`
(text/Lines.py L297-359), and `add_stop` (common/docx.py L69-91). Lengths are exact (python-docx truncates to EMU). -/

namespace Para
open Py

/-- `TextAlignment` (common/share.py L42-57). -/
inductive Align where
  | none | unknown | left | center | right | justify
  deriving DecidableEq, Repr

/-- A line along the text direction: `(bbox[idx0], bbox[idx1])` with `idx0, idx1 = 0, 2` (horizontal) or `3, 1`. -/
abbrev Ext := ℚ × ℚ

/-- `max(l) - min(l)` for a non-empty list. -/
def spread : List ℚ → ℚ
  | [] => 0
  | x :: xs => xs.foldl max x - xs.foldl min x

/-- The thresholds of the settings. -/
structure Thr where
  separate : ℚ
  left : ℚ
  right : ℚ
  center : ℚ

/-- A gap between adjacent lines of a row reaches the threshold (TextBlock.py L334-339). -/
def hasGap (f sep : ℚ) : List Ext → Bool
  | a :: b :: l => decide (sep ≤ (b.1 - a.2) * f) || hasGap f sep (b :: l)
  | _ => false

/-- The decision at the end of `_internal_alignment` (TextBlock.py L364-375): `n` rows, the three checks, the first line space. -/
def decideAlign (n : ℕ) (leftAligned rightAligned centerAligned : Bool) (fl : ℚ) : Align × Option ℚ :=
  if leftAligned && rightAligned then (if 3 ≤ n then .justify else .unknown, Option.none)
  else if leftAligned then (.left, some fl)
  else if rightAligned then (.right, Option.none)
  else if centerAligned then (.center, Option.none)
  else (.none, Option.none)

/-- `_internal_alignment` (TextBlock.py L311-375): alignment and the new `first_line_space`, if set. `rows` are the groups of
lines in one row (L323-324), `f = 1` (horizontal) or `-1`. -/
def internal (f : ℚ) (t : Thr) (rows : List (List Ext)) : Align × Option ℚ :=
  if rows.any (hasGap f t.separate) then (.none, Option.none)
  else if rows.length < 2 then (.unknown, Option.none)
  else
    let X0 := rows.map fun r => (r.headD (0, 0)).1
    let X1 := rows.map fun r => (r.getLastD (0, 0)).2
    let X := List.zipWith (fun a b => (a + b) / 2) X0 X1
    let X0' := if 3 ≤ rows.length then X0.drop 1 else X0
    let X1' := if 3 ≤ rows.length then X1.dropLast else X1
    decideAlign rows.length (decide (|spread X0'| ≤ t.left)) (decide (|spread X1'| ≤ t.right)) (decide (|spread X| ≤ t.center))
      (X0.getD 0 0 - X0.getD 1 0)

/-- `_external_alignment` (L391-410): alignment, `left_space_total`, `right_space_total`. `b`, `c`: block and container along the
text direction. -/
def external (f : ℚ) (t : Thr) (b c : Ext) : Align × ℚ × ℚ :=
  let dl := round1 ((b.1 - c.1) * f)
  let dr := round1 ((c.2 - b.2) * f)
  let dc := round1 ((dl - dr) / 2)
  let dl := max dl 0
  let dr := max dr 0
  (if |dc| < t.center then .center else if |dl| ≤ |dr| then .left else .right, dl, dr)

/-- The attributes set by `parse_horizontal_spacing`. -/
structure HSp where
  align : Align
  left : ℚ
  right : ℚ
  leftTotal : ℚ
  rightTotal : ℚ
  firstLine : ℚ
  tabStops : List ℚ
  deriving DecidableEq

/-- `TextBlock.parse_horizontal_spacing` (L148-202), on a fresh block (`first_line_space = 0`, no tab stops). `lines`: all lines in
order. The tab stops come from a Python set; the order does not matter because `python-docx` sorts them, here duplicates are
dropped. -/
def parse (f : ℚ) (t : Thr) (b c : Ext) (rows : List (List Ext)) (lines : List Ext) : HSp :=
  let int := internal f t rows
  let ext := external f t b c
  let a := if int.1 ≠ .unknown then int.1 else ext.1
  let stops := if a = .none then
      ((lines.map fun l => round1 ((l.1 - b.1) * f)).dedup).filter (fun p => decide (1 ≤ p)) else []
  let a := if a = .none then .left else a
  let fl := int.2.getD 0
  let (dl, dr) := ext.2
  match a with
  | .left => ⟨a, dl, min dl dr, dl, dr, fl, stops⟩
  | .right => ⟨a, min dl dr, dr, dl, dr, fl, stops⟩
  | .center => ⟨a, 0, 0, dl, dr, fl, stops⟩
  | _ => ⟨a, dl, dr, dl, dr, fl, stops⟩

/-- Indents written by `TextBlock.make_docx` (L300-306): left indent, right indent, first line indent. -/
def indents (s : HSp) : ℚ × ℚ × ℚ := (s.left - s.firstLine, s.right, s.firstLine)

/-- Tab stops written (L287-289): only for left alignment, sorted by `python-docx`. -/
def writtenStops (s : HSp) : List ℚ :=
  if s.align = .left then sortBy (fun x => x) (s.tabStops.map (s.left + ·)) else []

/-- `add_stop` (common/docx.py L69-91): number of tabs added. -/
def addStop (stops : List ℚ) (pos cur : ℚ) : ℕ :=
  if pos < 1 then 0 else go stops
where
  go : List ℚ → ℕ
    | [] => 0
    | t :: ts => if t < cur then go ts else if t < pos ∨ |t - pos| ≤ 1 then 1 + go ts else 0

/-- A line to be written: extent, content, `line_break`, whether it is in the same row as the next line. -/
structure Ln (α : Type) where
  ext : Ext
  content : α
  brk : Bool
  sameRow : Bool

/-- What a paragraph contains. -/
inductive Out (α : Type) where
  | tab | content (a : α) | brk
  deriving DecidableEq

/-- `Lines.make_docx` (Lines.py L338-359) with `Line.make_docx` (Line.py L178-181): `left` is `block.left_space`, `b0` the block's
start, `stops` the written tab stops. -/
def makeLines {α : Type} (left b0 : ℚ) (stops : List ℚ) : ℚ → List (Ln α) → List (Out α)
  | _, [] => []
  | cur, l :: ls =>
    let pos := left + (l.ext.1 - b0)
    let tabs := if left < pos ∧ stops ≠ [] then addStop stops pos cur else 0
    let next := if l.sameRow then pos + |l.ext.2 - b0| else left
    List.replicate tabs .tab ++ .content l.content :: ((if l.brk then [.brk] else []) ++ makeLines left b0 stops next ls)

/-- `Lines.parse_line_break` (Lines.py L297-335): the `line_break` flags. `edge`: the block's reference edge, `delta`: extra space,
`width`: block width, `ratio`: threshold; each line gives its edge, whether it is in the row of the next one, and whether its text is
blank. Division by a zero width raises. -/
def lineBreaks (edge delta width ratio : ℚ) : List (ℚ × Bool × Bool) → Except Err (List Bool)
  | [] => .ok []
  | [_] => .ok [false]
  | (e, same, _) :: (e', same', blank') :: ls =>
    let rest := lineBreaks edge delta width ratio ((e', same', blank') :: ls)
    if same then rest.map (false :: ·)
    else if width = 0 then .error .zeroDiv
    else rest.map (decide (ratio < (|edge - e| + delta) / width ∨ blank' = true) :: ·)

end Para
