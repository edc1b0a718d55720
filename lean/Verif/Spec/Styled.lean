import Verif.Styled
import Verif.Spec.Format
import Verif.Spec.WholePlain
/-! # Specification: decorations and links of a page of text in the document (C117) -/

namespace Spec
open Geom Text Pipe

variable {π : Type}

/-- What is drawn on the page: lines, then coloured areas (white ones left out), then link areas. -/
def drawnAreas (p : Deco.Page π) : List Area :=
  (p.shapes.filterMap fun | .stroke s => some ⟨s.bbox, s.color, none, false⟩ | _ => none) ++
  (p.shapes.filterMap fun | .fill b c => if c = Full.white then none else some ⟨b, c, none, false⟩ | _ => none) ++
  p.shapes.filterMap fun | .link b => some ⟨b, 0, some (p.uri b), false⟩ | _ => none

/-- What a reader sees of a piece of a paragraph: pictures, and characters with their look and decorations. -/
def itemMarks (items : List Item) : List (ℕ ⊕ (Chr × Look × List Mark)) :=
  items.flatMap fun
    | .image _ n => [.inl n]
    | .text s => s.chars.map fun c => .inr (c, lookOf s, marksOf s.style)

/-- What a reader sees of a paragraph. -/
def parMarks (p : Deco.Par) : List (ℕ ⊕ (Chr × Look × List Mark)) := p.flatMap fun
  | .content is => itemMarks is
  | _ => []

/-- The lines of a page, without blanks at their ends. -/
def linesOn (ws : Char → Bool) (p : Deco.Page π) : List (Lay.Ln Tok) := (pageBlocks ws p.whole).flatMap (bareLines ws)

/-- A page of text in one column (see `TextPage`), on which lines, coloured areas and links are drawn (see C116): white areas are behind a line of text; the areas do not disturb each other; a
coloured area is clearly a highlight or clearly not; nothing but links extends over two blocks. -/
structure Decorated (c : Whole.Cfg) (p : Deco.Page π) : Prop where
  page : TextPage c p.whole
  white : ∀ b, Full.Sh.fill b Full.white ∈ p.shapes → ∃ l ∈ linesOn c.ws p, Covers b l.bbox
  lines : ∀ l ∈ linesOn c.ws p, LineFine IsMark (drawnAreas p) (Deco.line l)
  definite : ∀ l ∈ linesOn c.ws p, ∀ s, Item.text s ∈ (Deco.line l).items → ∀ a ∈ drawnAreas p, Meets a.box s.bbox → Definite a s.bbox
  one : (bareBlocks c.ws p.whole).Pairwise fun b c => ∀ a ∈ drawnAreas p, a.link = none → ¬ (Overlap b.bbox a.box ∧ Overlap c.bbox a.box)

end Spec
