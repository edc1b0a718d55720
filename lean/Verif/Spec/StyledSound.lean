import Verif.Styled
/-! # Specification: no decoration without a drawing (C119) -/

namespace Spec
open Geom Text Pipe

/-- The extent of a box along the text. -/
def alongText (horizontal : Bool) (r : Rect) : ℚ × ℚ := if horizontal then (r.x0, r.x1) else (r.y0, r.y1)

/-- The extent of a box across the text: from the upper to the lower end of horizontal text. -/
def acrossText (horizontal : Bool) (r : Rect) : ℚ × ℚ := if horizontal then (r.y0, r.y1) else (r.x0, r.x1)

/-- The decoration `st` of text in the box `b` has the colour of a line or area drawn at `r`, and is what it looks like there: with `t` the thickness of the drawing, `H` the height of the text and
`d` the distance from the top of the drawing to the bottom of the text, a thin drawing is an underline if it is near the bottom, a strike-through line if it is near the middle; a highlight is
thick and not white. (A drawing that is thick for this text, but not a highlight, is what it is for the text before.) -/
def LooksLike (horizontal : Bool) (r : Rect) (color : ℤ) (b : Rect) (st : Style) : Prop :=
  let t := (acrossText horizontal r).2 - (acrossText horizontal r).1
  let H := (acrossText horizontal b).2 - (acrossText horizontal b).1
  let d := |(acrossText horizontal b).2 - (acrossText horizontal r).1|
  st.color = color ∧ st.uri = none ∧
    ((st.type = .underline ∧ (t < H / 2 → d ≤ H / 4)) ∨ (st.type = .strike ∧ (t < H / 2 → 35 / 100 * H < d ∧ d < 3 / 4 * H)) ∨
      (st.type = .highlight ∧ H / 2 ≤ t ∧ color ≠ 0xFFFFFF))

/-- The decoration `st` of text in the box `b` is of the kind of the drawing; a link has the address of its area. -/
def KindOf (uri : Rect → String) (horizontal : Bool) (b : Rect) (st : Style) : Full.Sh → Prop
  | .link a => st = ⟨.hyperlink, 0, some (uri a)⟩
  | .stroke s => LooksLike horizontal s.bbox s.color b st
  | .fill a k => LooksLike horizontal a k b st

/-- The decoration `st` of text in the box `b` comes from the drawing `sh`: the text is within the drawing along its direction, and the drawing reaches it across. -/
structure Decorates (uri : Rect → String) (horizontal : Bool) (sh : Full.Sh) (st : Style) (b : Rect) : Prop where
  along : (alongText horizontal sh.bbox).1 ≤ (alongText horizontal b).1 ∧ (alongText horizontal b).2 ≤ (alongText horizontal sh.bbox).2
  across : (acrossText horizontal sh.bbox).1 ≤ (acrossText horizontal b).2 ∧ (acrossText horizontal b).1 ≤ (acrossText horizontal sh.bbox).2
  kind : KindOf uri horizontal b st sh

mutual
/-- Every text of a block, at any depth. -/
def EachText (P : List (Lay.Ln Tok) → Styl.TBlock → Prop) : Deco.Blk → Prop
  | .text _ ls s => P ls s
  | .table _ _ cs => EachTextOf P cs
def EachTextOf (P : List (Lay.Ln Tok) → Styl.TBlock → Prop) : List (Full.Cell × List Deco.Blk) → Prop
  | [] => True
  | (_, bs) :: cs => EachTextIn P bs ∧ EachTextOf P cs
/-- Every text of a layout, at any depth. -/
def EachTextIn (P : List (Lay.Ln Tok) → Styl.TBlock → Prop) : List Deco.Blk → Prop
  | [] => True
  | b :: bs => EachText P b ∧ EachTextIn P bs
end

/-- The spans a paragraph is written from. -/
def parSpans (p : Deco.Par) : List Text.Span := p.flatMap fun
  | .content is => is.filterMap fun | .text s => some s | _ => none
  | _ => []

end Spec
