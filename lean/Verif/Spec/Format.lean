import Verif.Format
import Verif.Spec.Layout
/-! # Specification: which text is clickable (C94), underlined, struck through or highlighted (C116) -/

namespace Spec
open Geom Text Styl

/-- A shape drawn on the page: its box, its colour, for a link area the address, and whether it has become part of a table. -/
structure Area where
  box : Rect
  color : ℤ
  link : Option String
  table : Bool
  deriving DecidableEq

/-- A shape of the page as an area. -/
def areaOf (r : Shape) : Area :=
  ⟨r.bbox, r.color, if r.type = .hyperlink then some r.uri else none, decide (r.type = .border ∨ r.type = .shading)⟩

/-- Middle of a character along the line. -/
def mid (c : Chr) : ℚ := (c.bbox.x0 + c.bbox.x1) / 2

/-- More than half of the character's width lies between the left and right edges of the box. -/
def Half (r : Rect) (c : Chr) : Prop := (c.bbox.x1 - c.bbox.x0) / 2 < min c.bbox.x1 r.x1 - max c.bbox.x0 r.x0

instance (r : Rect) (c : Chr) : Decidable (Half r c) := by unfold Half; infer_instance

/-- The character lies under the box: they overlap vertically, and the box covers more than half of the character's width. -/
def Under (r : Rect) (c : Chr) : Prop := r.y0 < c.bbox.y1 ∧ c.bbox.y0 < r.y1 ∧ Half r c

instance (r : Rect) (c : Chr) : Decidable (Under r c) := by unfold Under; infer_instance

/-- The addresses of the link areas over the character, in order. -/
def addresses (areas : List Area) (c : Chr) : List String :=
  (areas.filter fun a => decide (Under a.box c)).filterMap Area.link

/-- The addresses among the styles of a span. -/
def linksOf (st : List Style) : List String := st.filterMap fun x => if x.type = .hyperlink then some (x.uri.getD "") else none

/-- What a reader sees of a line: pictures, and characters with the addresses they lead to. -/
def lineView (l : TLine) : List (ℕ ⊕ (Chr × List String)) :=
  l.items.flatMap fun
    | .image _ n => [.inl n]
    | .text s => s.chars.map fun c => .inr (c, linksOf s.style)

/-- What a reader sees of the blocks. -/
def pageView (bs : List TBlock) : List (List (List (ℕ ⊕ (Chr × List String)))) := bs.map fun b => b.lines.map lineView

/-- Every character gets the addresses of the link areas it lies under. -/
def marked (areas : List Area) : ℕ ⊕ (Chr × List String) → ℕ ⊕ (Chr × List String)
  | .inl n => .inl n
  | .inr (c, us) => .inr (c, us ++ addresses areas c)

/-- The box touches or overlaps the other one. -/
def Meets (r s : Rect) : Prop := r.x0 ≤ s.x1 ∧ s.x0 ≤ r.x1 ∧ r.y0 ≤ s.y1 ∧ s.y0 ≤ r.y1

instance (r s : Rect) : Decidable (Meets r s) := by unfold Meets; infer_instance

/-- A text span as a PDF delivers it: real boxes, the characters from left to right without overlap, as high as the span. -/
def PlainSpan (s : Span) : Prop :=
  RealBox s.bbox ∧
  (∀ c ∈ s.chars, c.bbox.x0 < c.bbox.x1 ∧ s.bbox.x0 ≤ c.bbox.x0 ∧ c.bbox.x1 ≤ s.bbox.x1 ∧ c.bbox.y0 = s.bbox.y0 ∧ c.bbox.y1 = s.bbox.y1) ∧
  s.chars.Pairwise fun c d => c.bbox.x1 ≤ d.bbox.x0

/-- Area `q` cuts the span cleanly when the areas `before` have been applied: it covers one of the characters, and left to right it is clear of
each of the others or strictly inside it. -/
def Clean (before : List Area) (q : Rect) (s : Span) : Prop :=
  (∃ d ∈ s.chars, Half q d) ∧
  ∀ p ∈ before, Meets p.box s.bbox → p.box.x1 < q.x0 ∨ q.x1 < p.box.x0 ∨ p.box.x0 < q.x0 ∧ q.x1 < p.box.x1

/-- The area is a link. -/
def IsLink (a : Area) (_ : Rect) : Prop := a.link ≠ none

instance (a : Area) (b : Rect) : Decidable (IsLink a b) := by unfold IsLink; infer_instance

/-- The areas drawn over a span do not disturb each other (`imp a b`: area `a` is one of those looked for, for text with box `b`):
* no edge goes exactly through the middle of a character, and no area looked for just touches the line of text from above or below;
* where an area looked for lies over a character left of an earlier area `q`, that area cuts the span cleanly. -/
def Undisturbed (imp : Area → Rect → Prop) (areas : List Area) (s : Span) : Prop :=
  (∀ a ∈ areas, Meets a.box s.bbox → ∀ c ∈ s.chars, a.box.x0 ≠ mid c ∧ a.box.x1 ≠ mid c) ∧
  (∀ a ∈ areas, imp a s.bbox → a.box.y1 ≠ s.bbox.y0 ∧ a.box.y0 ≠ s.bbox.y1) ∧
  ∀ before q later, areas = before ++ q :: later → Meets q.box s.bbox →
    (∃ r ∈ later, imp r s.bbox ∧ ∃ c ∈ s.chars, Under r.box c ∧ mid c < q.box.x1 ∧ ¬ Half q.box c) → Clean before q.box s

/-- A line of text with real boxes and undisturbed spans. -/
def LineFine (imp : Area → Rect → Prop) (areas : List Area) (l : TLine) : Prop :=
  l.horizontal = true ∧ RealBox l.bbox ∧ ∀ i ∈ l.items, Covers l.bbox i.bbox ∧
    match i with
    | .image b _ => RealBox b
    | .text s => PlainSpan s ∧ Undisturbed imp areas s

/-- A block: lines from top to bottom, inside the block. -/
def BlockFine (imp : Area → Rect → Prop) (areas : List Area) (b : TBlock) : Prop :=
  RealBox b.bbox ∧ (∀ l ∈ b.lines, Covers b.bbox l.bbox ∧ LineFine imp areas l) ∧
  b.lines.Pairwise fun l m => l.bbox.y0 ≤ m.bbox.y0

/-- The page. -/
def Fine (imp : Area → Rect → Prop) (areas : List Area) (bs : List TBlock) : Prop := (∀ a ∈ areas, RealBox a.box) ∧ ∀ b ∈ bs, BlockFine imp areas b

/-! ## Decorations (C116) -/

/-- A decoration of text. -/
inductive Mark where
  | underline (color : ℤ)
  | strike (color : ℤ)
  | highlight (color : ℤ)
  | link (uri : String)
  deriving DecidableEq

/-- The area is at least half as high as the text. -/
def Thick (a : Area) (b : Rect) : Prop := (b.y1 - b.y0) / 2 ≤ a.box.y1 - a.box.y0

instance (a : Area) (b : Rect) : Decidable (Thick a b) := by unfold Thick; infer_instance

/-- How far the top of the area is above (or below) the bottom of the text. -/
def riseOf (a : Area) (b : Rect) : ℚ := |b.y1 - a.box.y0|

/-- The decoration an area is for text with box `b`: a link; a highlight, if it is at least half as high as the text; an underline, if its top is within a quarter of the height from the
bottom; a strike-through line between 35% and 75% of the height. A line that belongs to a table is none. -/
def markAt (a : Area) (b : Rect) : Option Mark :=
  match a.link with
  | some u => some (.link u)
  | none =>
    if a.table = true then none
    else if Thick a b then some (.highlight a.color)
    else if riseOf a b ≤ (b.y1 - b.y0) / 4 then some (.underline a.color)
    else if 7 / 20 * (b.y1 - b.y0) < riseOf a b ∧ riseOf a b < 3 / 4 * (b.y1 - b.y0) then some (.strike a.color)
    else none

/-- The area is one of the decorations. -/
def IsMark (a : Area) (b : Rect) : Prop := markAt a b ≠ none

instance (a : Area) (b : Rect) : Decidable (IsMark a b) := by unfold IsMark; infer_instance

/-- The decorations over a character of text with box `b`, in order. -/
def marksOver (areas : List Area) (b : Rect) (c : Chr) : List Mark :=
  (areas.filter fun a => decide (Under a.box c)).filterMap fun a => markAt a b

/-- The decorations of a span. -/
def marksOf (st : List Style) : List Mark := st.filterMap fun x =>
  match x.type with
  | .underline => some (.underline x.color)
  | .strike => some (.strike x.color)
  | .highlight => some (.highlight x.color)
  | .hyperlink => some (.link (x.uri.getD ""))
  | _ => none

/-- Colour, font, size and font flags of a span. -/
structure Look where
  color : ℤ
  font : String
  size : ℚ
  flags : ℕ
  deriving DecidableEq

def lookOf (s : Span) : Look := ⟨s.color, s.font, s.size, s.flags⟩

/-- What a reader sees of a line: pictures, and characters with their look and their decorations. -/
def lineMarks (l : TLine) : List (ℕ ⊕ (Chr × Look × List Mark)) :=
  l.items.flatMap fun
    | .image _ n => [.inl n]
    | .text s => s.chars.map fun c => .inr (c, lookOf s, marksOf s.style)

/-- What a reader sees of a page that is to be decorated: every character has the decorations of its text, followed by those of the areas over it. -/
def lineDecorated (areas : List Area) (l : TLine) : List (ℕ ⊕ (Chr × Look × List Mark)) :=
  l.items.flatMap fun
    | .image _ n => [.inl n]
    | .text s => s.chars.map fun c => .inr (c, lookOf s, marksOf s.style ++ marksOver areas s.bbox c)

/-- The colours of the underlines among the decorations. -/
def underlinesIn (m : List Mark) : List ℤ := m.filterMap fun | .underline k => some k | _ => none

/-- The colours of the strike-through lines among the decorations. -/
def strikesIn (m : List Mark) : List ℤ := m.filterMap fun | .strike k => some k | _ => none

/-- The colours of the highlights among the decorations. -/
def highlightsIn (m : List Mark) : List ℤ := m.filterMap fun | .highlight k => some k | _ => none

/-- An area as high as half the text is a highlight beyond doubt: it is not white, and covers three quarters of the height of the text. -/
def Definite (a : Area) (b : Rect) : Prop :=
  a.link = none → a.table = false → Thick a b → a.color ≠ 0xFFFFFF ∧ 3 / 4 * (b.y1 - b.y0) ≤ min b.y1 a.box.y1 - max b.y0 a.box.y0

instance (a : Area) (b : Rect) : Decidable (Definite a b) := by unfold Definite; infer_instance

/-- The areas are definite for all text they meet. -/
def AllDefinite (areas : List Area) (bs : List TBlock) : Prop :=
  ∀ b ∈ bs, ∀ l ∈ b.lines, ∀ s, Item.text s ∈ l.items → ∀ a ∈ areas, Meets a.box s.bbox → Definite a s.bbox

/-- Two boxes overlap. -/
def Overlap (r s : Rect) : Prop := r.x0 < s.x1 ∧ s.x0 < r.x1 ∧ r.y0 < s.y1 ∧ s.y0 < r.y1

instance (r s : Rect) : Decidable (Overlap r s) := by unfold Overlap; infer_instance

/-- No line or coloured area, other than links and parts of tables, extends over two blocks. -/
def OneBlock (areas : List Area) (bs : List TBlock) : Prop :=
  bs.Pairwise fun b c => ∀ a ∈ areas, a.link = none → a.table = false → ¬ (Overlap b.bbox a.box ∧ Overlap c.bbox a.box)

end Spec
