import Verif.Spec.Docx
import Verif.Spec.Layout
import Verif.Spec.Lines
import Verif.Pipe
/-! # Specification: the text of a page and of a document -/

namespace Spec
open Geom Py Assign Pipe

/-! ## What a page shows -/

/-- Characters of a text span are characters, the content of an image span is a picture. -/
def Tagged : Sp → Prop
  | .text _ cs => ∀ c ∈ cs, ∃ x, c.2 = .chr x
  | .image _ t => ∃ n, t = .pic n

/-- An extracted block: real boxes, each within the next; an image block has one line with the image as its only span. -/
structure RawOK (b : Raw) : Prop where
  boxes : TextOK (b.bbox, b.lines)
  tags : ∀ l ∈ b.lines, ∀ s ∈ l.spans, Tagged s.2
  image : ∀ s, b.image = some s → ∃ box n l, s = .image box (.pic n) ∧ b.lines = [l] ∧ l.spans = [(box, s)]

/-- Everything in a block, in order. -/
def rawToks (b : Raw) : List Tok := b.lines.flatMap Lay.lineItems

/-- What can be seen of a list of characters and pictures: blanks left out. -/
def seen (ws : Char → Bool) (ts : List Tok) : List Tok := ts.filter fun t => !t.blank ws

/-- Blocks supposed to be converted: on the page, with something to see, all lines from left to right or all from bottom to top or a mixture of both. -/
def ToConvert (ws : Char → Bool) (page : Rect) (b : Raw) : Prop :=
  max b.bbox.x0 page.x0 < min b.bbox.x1 page.x1 ∧ max b.bbox.y0 page.y0 < min b.bbox.y1 page.y1 ∧ seen ws (rawToks b) ≠ [] ∧
  ∀ l ∈ b.lines, l.dir ≠ .ignore

instance (ws : Char → Bool) (page : Rect) (b : Raw) : Decidable (ToConvert ws page b) := by unfold ToConvert; infer_instance

/-- What the page shows. -/
def shownOnPage {π : Type} (ws : Char → Bool) (p : Page π) : List Tok :=
  (p.raw.filter fun b => decide (ToConvert ws p.box b)).flatMap fun b => seen ws (rawToks b)

/-! ## What a document shows -/

mutual
/-- Texts of contents, in order, at every nesting. -/
def leaves {α : Type} : List (Tree α) → List α
  | [] => []
  | .text a :: ts => a :: leaves ts
  | .table rows :: ts => leavesRows rows ++ leaves ts
def leavesRows {α : Type} : List (List (Option (List (Tree α)))) → List α
  | [] => []
  | r :: rs => leavesRow r ++ leavesRows rs
def leavesRow {α : Type} : List (Option (List (Tree α))) → List α
  | [] => []
  | c :: cs => leavesCell c ++ leavesRow cs
def leavesCell {α : Type} : Option (List (Tree α)) → List α
  | none => []
  | some ts => leaves ts
end

/-- Characters and picture of a word. -/
def wordToks : Word → List Tok
  | .run r => r.text.map .chr
  | .pic n => [.pic n]

/-- Characters and pictures of a paragraph. -/
def parToks (p : Par) : List Tok := p.flatMap fun
  | .content ws => ws.flatMap wordToks
  | _ => []

/-- Visible characters and inline pictures of a part of a document. -/
def shownInline {π : Type} (ws : Char → Bool) (body : List (Docx.Item Par Sp π)) : List Tok := seen ws ((leaves (ofItems body)).flatMap parToks)

/-- Pictures anchored in a part of a document. -/
def shownFloating {π : Type} (body : List (Docx.Item Par Sp π)) : List Tok := (floatsOf body).flatMap Span.items

/-! ## Pages on which nothing can be lost -/

/-- The conditions: extracted blocks as above; after floating images have been taken out no two lines overlap by the part `ov`; the tables found fit what they
take; the grid of a table has a visible position per cell. -/
structure PageFine {π : Type} (c : Pipe.Cfg) (p : Page π) : Prop where
  raw : ∀ b ∈ p.raw, RawOK b
  clear : ∀ bs fs, beforeJoin c p.box p.raw = .ok (bs, fs) →
    ((bs.filter fun b => decide (b.bbox ≠ Rect.zero)).flatMap Lns.Blk.lines).Pairwise fun a b => ¬ OverlapBy c.ov a.bbox b.bbox ∧ ¬ OverlapBy c.ov b.bbox a.bbox
  fits : ∀ r, cleanUp c p.box p.raw = .ok r → ∀ path box s ss bs ts,
    Reached c.lay p.detect p.ids p.work (r.1.map fun b => .text b.bbox b.lines) path box (s :: ss) bs → p.detect path box s bs = .ok ts → Fits ts bs
  grid : ∀ box n, ((p.fmt.grid box n).flatten.count true) = n

end Spec
