import Verif.Collection
/-! # Page margins: `Page._cal_margin` and `Page.working_bbox` (page/Page.py L244-272, L103-108) -/

namespace Page
open Py Geom

/-- A margin: left, right, top, bottom. -/
structure Margin where
  left : ℚ
  right : ℚ
  top : ℚ
  bottom : ℚ
  deriving DecidableEq, Repr

/-- `Page._cal_margin` (page/Page.py L244-272). `w`, `h`: page size; `blocks`, `shapes`: boxes after the clean-up; `ft`, `fb`: the
settings `page_margin_factor_top` and `page_margin_factor_bottom`. `constants.ITP = 72`, `constants.MINOR_DIST = 1`. -/
def calMargin (w h : ℚ) (blocks shapes : List Rect) (ft fb : ℚ) : Margin :=
  if blocks = [] ∧ shapes = [] then ⟨72, 72, 72, 72⟩
  else
    let u := (Coll.bbox blocks).union (Coll.bbox shapes)
    let left := max (u.x0 - 0) 0
    let right := max (w - u.x1 - 1) 0
    let top := max (u.y0 - 0) 0 * ft
    let bottom := max (h - u.y1) 0 * fb
    ⟨min 72 (round1 left), min 72 (round1 right), min 72 (round1 top), min 72 (round1 bottom)⟩

/-- `Page.bbox` (L92-93). -/
def pageBox (w h : ℚ) : Rect := ⟨0, 0, w, h⟩

/-- `Page.working_bbox` (L101-106). -/
def workingBbox (w h : ℚ) (m : Margin) : Rect := ⟨0 + m.left, 0 + m.top, w - m.right, h - m.bottom⟩

end Page
