import Verif.Spec.WholePlain
import Verif.Spec.DrawFill
import Verif.Spec.FullShade
/-! # Specification: text on a coloured area in the document (C114) -/

namespace Spec
open Geom Py Pipe

/-- A page of text in one column, some of it on a coloured area `F` (see `OnArea` for the other drawings), within the width of the working area of the page and not set in two columns. -/
structure ShadedPage {π : Type} (c : Whole.Cfg) (F : Rect) (color : ℕ) (p : Whole.Page π) : Prop where
  raw : ∀ b ∈ p.raw, RawOK b
  text : ColumnText (pageBlocks c.ws p)
  floats : ∀ bs fs, beforeJoin c.pipe p.box p.raw = .ok (bs, fs) → fs = []
  drawn : OnArea F color (bareBlocks c.ws p) p.shapes
  place : ∀ b ∈ pageBlocks c.ws p, Covers F b.bbox ∨ b.bbox.y1 < F.y0 ∨ F.y1 < b.bbox.y0
  area : Covers p.work F
  width : F.x0 + c.full.base.clear < F.x1
  height : F.y0 + c.full.base.clear < F.y1
  within : ∀ r ∈ pageBoxes (bareBlocks c.ws p) p.shapes, p.work.x0 ≤ r.x0 ∧ r.x1 ≤ p.work.x1
  columns : NotTwoColumns ((p.work.x0 + p.work.x1) / 2) (pageBoxes (bareBlocks c.ws p) p.shapes)

/-- The contents of a section: text above the area, a table of one cell, and text below; above, in the cell and below exactly the given lines that are there, from top to bottom. -/
def AreaShown (ws : Char → Bool) (F : Rect) (ls : List (Lay.Ln Tok)) (ts : List (Tree Par)) : Prop :=
  ∃ above cell below, ts = above ++ .table [[some cell]] :: below ∧ ShowsLines ws above (ls.filter fun l => l.bbox.y1 < F.y0) ∧
    ShowsLines ws cell (ls.filter fun l => Covers F l.bbox) ∧ ShowsLines ws below (ls.filter fun l => F.y1 < l.bbox.y0)

/-- The lines, filled areas and links that can be seen on the page; narrow areas are lines. -/
def paintedShapes {π : Type} (c : Draw.Cfg) (p : Draw.Page π) : List Full.Sh :=
  ((p.drawings.flatMap drawnShapes).filter fun s => Visible p.box c.minDim s.bbox).map (asLine c.whole.full.base.maxW) ++
    ((p.links.map Rect.round).filter fun b => Visible p.box c.minDim b).map Full.Sh.link

/-- The page with these. -/
def asPainted {π : Type} (c : Draw.Cfg) (p : Draw.Page π) : Whole.Page π := ⟨p.box, p.work, p.props, p.raw, paintedShapes c p, p.ids, p.styled, p.fmt⟩

/-- A page whose drawings are lines and filled rectangles, no two of them much the same. -/
structure Painted {π : Type} (c : Draw.Cfg) (p : Draw.Page π) : Prop where
  page : Proper p.box
  boxes : ∀ d ∈ p.drawings, BoxDrawing d ∧ (PointOn p.box d ∨ ∀ s ∈ drawnShapes d, ¬ Visible p.box c.minDim s.bbox)
  links : ∀ l ∈ p.links, l.Valid
  apart : ((p.drawings.flatMap drawnShapes).filter fun s => Visible p.box c.minDim s.bbox).Pairwise (Separate c.threshold)

end Spec
