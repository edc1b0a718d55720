import Verif.Run
import Verif.Spec.CellDocx
/-! # Specification: what a run of the docx looks like (C93) -/

namespace Spec
open Run Text

/-- `x` is the one and only property of its kind. -/
def The (rPr : List RPr) (x : RPr) : Prop := rPr.filter (fun y => decide (y.kind = x.kind)) = [x]

/-- The run has no property of the kind. -/
def Without (rPr : List RPr) (k : Kind) : Prop := ∀ y ∈ rPr, y.kind ≠ k

/-- RGB value of the named highlight colours of Word. -/
def namedRGB : Named → ℕ
  | .red => 0xFF0000
  | .brightGreen => 0x00FF00
  | .blue => 0x0000FF
  | .yellow => 0xFFFF00
  | .pink => 0xFF00FF
  | .turquoise => 0x00FFFF

/-- The property gives the text a background of colour `c`. -/
def Background (c : ℕ) : RPr → Prop
  | .highlight n => namedRGB n = c
  | .shd h => HexOf h c
  | _ => False

/-- The property underlines text of colour `text` with a line of colour `c`. -/
def Underlines (text c : ℕ) : RPr → Prop
  | .u none => c = text
  | .u (some h) => HexOf h c
  | _ => False

/-- A colour. -/
def IsColour (c : ℤ) : Prop := 0 ≤ c ∧ c < 2 ^ 24

/-- The colours of a span are colours. -/
def Colours (s : Span) : Prop := IsColour s.color ∧ ∀ st ∈ s.style, IsColour st.color

/-- The colours of the styles of a type. -/
def colours (t : RType) (s : Span) : List ℤ := (s.style.filter fun st => decide (st.type = t)).map Style.color

end Spec
