import Verif.Spec.RowPlaces
import Verif.Spec.LineBreaks
/-! # Specification: paragraphs as on the page (C128) -/

namespace Spec
open Geom Py Pipe

/-- A paragraph, set between `a` and `b`, against the lines on the page: it shows them, each is a row of it, the rows start where the lines do, and they are broken where they have to be. -/
def InPlace (c : Pose.Cfg) (a b : ℚ) (q : Pose.Par) (ls : List (Lay.Ln Tok)) : Prop :=
  ShowsRows q ls ∧ (rowStarts a b q ls).length = ls.length ∧
    (∀ (i : ℕ) (y : ℚ) (l : Lay.Ln Tok), (rowStarts a b q ls)[i]? = some y → ls[i]? = some l → RowsInPlace c.left c.right c.center a b ls y l) ∧
    ∃ h, IsHull (ls.map fun l => l.bbox) h ∧ BrokenRight c.whole.ws c.ratio a b (h.x1 - h.x0) q ls

end Spec
