import Verif.TextSpan
import Verif.CellDocx
/-! # Model of `TextSpan._set_text_format` (text/TextSpan.py L389-442) and of the run functions of `common/docx.py`

The properties of a docx run are the children of its `w:rPr` element. `python-docx` (assumed semantics): `run.bold`, `run.italic`, `font.strike`, `font.name`, `font.size`,
`font.color.rgb`, `font.highlight_color` and `font.underline` replace the element of that name by one with the new value; `rPr.insert(0, xml)` adds a child in front
without removing others. `run.superscript` is not a property of a `python-docx` run (superscript is a property of `run.font`): the assignment sets an attribute of the Python
object and nothing in the document. -/

namespace Run
open Py Text

/-- The kinds of children of `w:rPr` considered. -/
inductive Kind where
  | b | i | vertAlign | fonts | color | sz | w | highlight | shd | u | strike
  deriving DecidableEq

/-- The six colours of `set_char_shading` (common/docx.py L121-128). -/
inductive Named where
  | red | brightGreen | blue | yellow | pink | turquoise
  deriving DecidableEq

/-- A child of `w:rPr`. -/
inductive RPr where
  | b (on : Bool)
  | i (on : Bool)
  | vertAlign (superscript : Bool)
  | fonts (ascii hAnsi eastAsia : List Char)
  | color (hex : List ℕ)
  | sz (halfPoints : ℤ)
  | w (percent : ℚ)
  | highlight (c : Named)
  | shd (hex : List ℕ)
  /-- `none`: the colour of the text. -/
  | u (hex : Option (List ℕ))
  | strike (on : Bool)
  deriving DecidableEq

def RPr.kind : RPr → Kind
  | .b _ => .b
  | .i _ => .i
  | .vertAlign _ => .vertAlign
  | .fonts _ _ _ => .fonts
  | .color _ => .color
  | .sz _ => .sz
  | .w _ => .w
  | .highlight _ => .highlight
  | .shd _ => .shd
  | .u _ => .u
  | .strike _ => .strike

/-- Setting a property with `python-docx`. The place among the other children has no meaning and is not modelled. -/
def put (x : RPr) (l : List RPr) : List RPr := l.filter (fun y => decide (y.kind ≠ x.kind)) ++ [x]

/-- `color_map` of `set_char_shading` (common/docx.py L121-128). -/
def named (c : ℕ) : Option Named :=
  if c = 0xFF0000 then some .red
  else if c = 0x00FF00 then some .brightGreen
  else if c = 0x0000FF then some .blue
  else if c = 0xFFFF00 then some .yellow
  else if c = 0xFF00FF then some .pink
  else if c = 0x00FFFF then some .turquoise
  else none

/-- `set_char_shading` (common/docx.py L107-134). -/
def setShading (c : ℕ) (l : List RPr) : List RPr :=
  match named c with
  | some n => put (.highlight n) l
  | none => .shd (CellDocx.hex6 c) :: l

/-- `set_char_underline` (common/docx.py L137-146). -/
def setUnderline (c : ℕ) (l : List RPr) : List RPr := .u (some (CellDocx.hex6 c)) :: l

/-- One style of the span (text/TextSpan.py L424-442). Colours are integers in Python; `toNat` is the identity for colours (not negative). -/
def setStyle (color : ℤ) (l : List RPr) (st : Style) : List RPr :=
  match st.type with
  | .highlight => setShading st.color.toNat l
  | .underline => if color = st.color then put (.u none) l else setUnderline st.color.toNat l
  | .strike => put (.strike true) l
  | _ => l

/-- The properties set before the styles (text/TextSpan.py L400-411); `superscript` has no effect. `RGBColor(*rgb_component(c))` has the six digits of `c`. -/
def basics (s : Span) : List RPr :=
  put (.color (CellDocx.hex6 s.color.toNat)) (put (.fonts (fontOf s.font.toList) (fontOf s.font.toList) (fontOf s.font.toList))
    (put (.b (fontFlags s.flags).2.2) (put (.i (fontFlags s.flags).2.1) [])))

/-- `set_char_scaling` (common/docx.py L95-104), if the scale differs from 1. -/
def setScaling (sc : Option ℚ) (l : List RPr) : List RPr :=
  match sc with
  | some x => .w (100 * x) :: l
  | none => l

/-- `TextSpan._set_text_format` on a new run (text/TextSpan.py L389-442). -/
def format (s : Span) : Except Err (List RPr) :=
  match fontSize s.size with
  | .error e => .error e
  | .ok f => .ok (s.style.foldl (setStyle s.color) (setScaling f.2 (put (.sz (trunc (f.1 * 2))) (basics s))))

end Run
