import Verif.Spec.FullTable
/-! # Specification: the colours of cells (C115, C131) -/

namespace Spec
open Geom Full

/-- The colour of a cell with the given area inside its borders, if `shapes` are drawn on a page with lines of text at `lines`: it is that of an area drawn behind it that has text on it, and not another
than that of an area drawn behind it, or white. -/
def Coloured (inner : Rect) (shapes : List Sh) (lines : List Rect) (bg : Option ℕ) : Prop :=
  (∀ b col, Sh.fill b col ∈ shapes → col ≠ white → Covers b inner → (∃ l ∈ lines, Covers b l) → bg = some col) ∧
    ∀ col, bg = some col → col = white ∨ ∃ b, Sh.fill b col ∈ shapes ∧ Covers b inner

end Spec
