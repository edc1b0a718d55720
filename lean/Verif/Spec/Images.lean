import Verif.Images
/-! # Specification: what becomes of the pictures of a page -/

namespace Spec
open Geom Py Images
variable {β ρ : Type}

/-- Two boxes are at the same place up to rounding to whole points. -/
def SamePlace (a b : Rect) : Prop :=
  roundHE a.x0 = roundHE b.x0 ∧ roundHE a.y0 = roundHE b.y0 ∧ roundHE a.x1 = roundHE b.x1 ∧ roundHE a.y1 = roundHE b.y1

instance (a b : Rect) : Decidable (SamePlace a b) := by unfold SamePlace; infer_instance

/-- The page draws the picture with content key `k` at the place of `img`. -/
def DrawnAt (hash : β → ℤ) (bs : List (Block β ρ)) (img : Block β ρ) (k : ℤ) : Prop :=
  ∃ b ∈ bs, b.type = 1 ∧ hash b.image = k ∧ SamePlace b.bbox img.bbox

instance (hash : β → ℤ) (bs : List (Block β ρ)) (img : Block β ρ) (k : ℤ) : Decidable (DrawnAt hash bs img k) := by
  unfold DrawnAt; infer_instance

/-- The picture of the page that a recovered image stands for: the first one drawn at its place. -/
def target (hash : β → ℤ) (bs : List (Block β ρ)) (img : Block β ρ) : Option ℤ :=
  ((bs.filter fun b => b.type = 1).map fun b => hash b.image).find? fun k => decide (DrawnAt hash bs img k)

/-- What becomes of a block of the page: text stays; a picture gets the content of the last recovered image that stands for it, and is
deleted if there is none. -/
def fate (hash : β → ℤ) (images bs : List (Block β ρ)) (b : Block β ρ) : Block β ρ :=
  if b.type = 1 then
    match (images.filter fun img => target hash bs img = some (hash b.image)).getLast? with
    | none => { b with type := -1 }
    | some img => { b with image := img.image }
  else b

/-- Recovered images that stand for no picture of the page (e.g. partly outside the page). -/
def extra (hash : β → ℤ) (images bs : List (Block β ρ)) : List (Block β ρ) :=
  images.filter fun img => target hash bs img = none

end Spec
