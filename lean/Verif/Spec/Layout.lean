import Verif.Spec.Geom
import Verif.Layout
/-! # Specification for nested layouts -/

namespace Spec
open Geom Py Assign Lay

variable {α : Type}

/-! ## Boxes -/

/-- Real boxes on the 0.1 grid, as all stored boxes. -/
def RealBox (r : Rect) : Prop := Proper r ∧ Tenths r

/-- A span with real boxes: its characters lie in it. -/
def SpanOK : Span α → Prop
  | .text b cs => RealBox b ∧ ∀ c ∈ cs, RealBox c.1 ∧ Covers b c.1
  | .image b _ => RealBox b

/-- A line with real boxes: its spans lie in it. -/
def LineOK (l : Ln α) : Prop := RealBox l.bbox ∧ ∀ s ∈ l.spans, s.1 = s.2.bbox ∧ SpanOK s.2 ∧ Covers l.bbox s.1

/-- A text block with real boxes: its lines lie in it, and each has an original block. -/
def TextOK (t : Rect × List (Ln α)) : Prop := RealBox t.1 ∧ ∀ l ∈ t.2, LineOK l ∧ Covers t.1 l.bbox

/-! ## Runs -/

/-- The layouts met while a page is parsed: position, box, remaining stages, blocks at that moment. -/
inductive Reached (c : Cfg) (D : Detect α) (nid : Ids) (page : Rect) (input : List (Blk α)) : List ℕ → Rect → List ℕ → List (Blk α) → Prop
  | start : Reached c D nid page input [] page [0, 1, 2] input
  | stage {path box s ss bs ts bs'} : Reached c D nid page input path box (s :: ss) bs → D path box s bs = .ok ts →
      assignTables (nid path s) ts bs = .ok bs' → Reached c D nid page input path box ss bs'
  | cell {path box bs bs' i j r cs cb sub} : Reached c D nid page input path box [] bs → Lay.splitBack c bs = .ok bs' →
      bs'[i]? = some (.table r cs) → cs[j]? = some (cb, sub) → Reached c D nid page input (path ++ [i, j]) cb [1, 2] sub

/-! ## Tables that fit their content -/

/-- Two boxes share no interior point. -/
def Apart (a b : Rect) : Prop := min a.x1 b.x1 ≤ max a.x0 b.x0 ∨ min a.y1 b.y1 ≤ max a.y0 b.y0

/-- Boxes of the characters and images of a line. -/
def itemBoxes (l : Ln α) : List Rect := l.spans.flatMap fun s =>
  match s.2 with
  | .text _ cs => cs.map Prod.fst
  | .image b _ => [b]

/-- Part of the area of `b` lying in `t`, rounded to two digits. -/
def share (t b : Rect) : ℚ := (roundHE (100 * ((b.inter t).area / b.area)) : ℚ) / 100

/-- The lines of a text block (box `r`, lines `ls`) belonging to a table with box `t`: all of them if the table covers the block, otherwise
those with 90% of their area in it. -/
def linesIn (t r : Rect) (ls : List (Ln α)) : List (Ln α) := if Covers t r then ls else ls.filter fun l => decide (9 / 10 ≤ share t l.bbox)

/-- Box of the part of the block belonging to the table. -/
def boxIn (t r : Rect) (ls : List (Ln α)) : Rect := if Covers t r then r else (linesIn t r ls).foldl (fun b l => Coll.unionBbox b l.bbox) Rect.zero

/-- The cell holds at least 95% of the box (`Element.contains`). -/
def Mostly (cell b : Rect) : Prop := El.contains ⟨cell, .leftRight⟩ ⟨b, .leftRight⟩ (19 / 20) = true

/-- The tables found fit the blocks: tables do not overlap, nor do cells of one table; of the text of a block belonging to a table each
character and image lies in a cell, and a cell holding 95% of that part holds all of it; a table within a table is in exactly one cell. -/
structure Fits (ts : List Tab) (bs : List (Blk α)) : Prop where
  box : ∀ t ∈ ts, Proper t.box
  cells : ∀ t ∈ ts, ∀ c ∈ t.cells, Proper c
  apart : ts.Pairwise fun t u => Apart t.box u.box
  cellsApart : ∀ t ∈ ts, t.cells.Pairwise Apart
  inCell : ∀ r ls, Blk.text r ls ∈ bs → ∀ t ∈ ts, ∀ l ∈ linesIn t.box r ls, ∀ x ∈ itemBoxes l, ∃ c ∈ t.cells, Covers c x
  whole : ∀ r ls, Blk.text r ls ∈ bs → ∀ t ∈ ts, ∀ c ∈ t.cells, Mostly c (boxIn t.box r ls) → Covers c (boxIn t.box r ls)
  nested : ∀ r cs, Blk.table r cs ∈ bs → ∀ t ∈ ts, Covers t.box r → ∃ l₁ c l₂, t.cells = l₁ ++ c :: l₂ ∧ Mostly c r ∧ ∀ c' ∈ l₁ ++ l₂, ¬ Mostly c' r

end Spec
