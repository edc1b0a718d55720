import Verif.Spec.Draw
/-! # Specification: nothing in the document that is not on its page (C113) -/

namespace Spec
open Geom Py Pipe

/-- The characters and pictures of the lines of a paragraph. -/
def parLines (p : Par) : List (List Tok) := p.filterMap fun
  | .content ws => some (ws.flatMap wordToks)
  | _ => none

/-- The lines of the blocks to be converted. -/
def pageLines (ws : Char → Bool) (page : Rect) (bs : List Raw) : List (Lay.Ln Tok) := (bs.filter fun b => decide (ToConvert ws page b)).flatMap Lns.Blk.lines

/-- The text is made of characters and pictures of these lines: some of the lines one after the other, each with its characters in their order, possibly with something left out. -/
def MadeOf (ls : List (Lay.Ln Tok)) (ts : List Tok) : Prop := ∃ ms : List (Lay.Ln Tok), (∀ m ∈ ms, m ∈ ls) ∧ ts.Sublist (ms.flatMap Lay.lineItems)

end Spec
