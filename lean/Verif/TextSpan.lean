import Verif.Py
import Verif.Geom
/-!
# Model of `text/Char.py`, `text/TextSpan.py`, `text/Spans.py` and the span level of `text/Lines.py`

Simplifications: a `Char` carries exactly one character (PyMuPDF delivers single characters); font metrics (`set_font`)
are not modelled.
-/

namespace Text
open Geom Py

/-- `Char` (text/Char.py): character and box. -/
structure Chr where
  c : Char
  bbox : Rect
  deriving DecidableEq

/-- `RectType` (common/share.py L21-30). -/
inductive RType where
  | undefined | highlight | underline | strike | underlineOrStrike | hyperlink | border | shading
  deriving DecidableEq, Repr

/-- `Shape` as far as text styling sees it (shape/Shape.py L56-75, Hyperlink L301-327). -/
structure Shape where
  bbox : Rect
  color : ℤ
  type : RType
  uri : String := ""
  deriving DecidableEq

/-- A style entry `{'type', 'color'[, 'uri']}`. -/
structure Style where
  type : RType
  color : ℤ
  uri : Option String
  deriving DecidableEq

/-- `TextSpan` (text/TextSpan.py L46-65). `font`, `size`, `flags`, `color` are kept by `copy()`. -/
structure Span where
  chars : List Chr
  bbox : Rect
  style : List Style
  color : ℤ := 0
  font : String := ""
  size : ℚ := 12
  flags : ℕ := 0
  deriving DecidableEq

/-- `TextSpan.text` (L94-98). -/
def Span.text (s : Span) : List Char := s.chars.map Chr.c

/-- `rect in rect` of PyMuPDF (assumed: coordinate-wise inclusion of a non-empty rectangle). -/
def rectIn (a b : Rect) : Bool :=
  decide (¬ a.isEmpty ∧ b.x0 ≤ a.x0 ∧ a.x1 ≤ b.x1 ∧ b.y0 ≤ a.y0 ∧ a.y1 ≤ b.y1)

/-- `Char.contained_in_rect` (text/Char.py L27-53). -/
def Chr.containedIn (c : Chr) (rect : Rect) (horizontal : Bool) : Bool :=
  if rectIn c.bbox rect then true
  else
    let i := c.bbox.inter rect
    if horizontal then decide (1 / 2 * c.bbox.width < i.width) else decide (1 / 2 * c.bbox.height < i.height)

/-- `rgb_value((1,1,1))`. -/
def white : ℤ := 0xFFFFFF

/-- `FACTOR_MAJOR` (common/constants.py L17). -/
def factorMajor : ℚ := 3 / 4

/-- The type `_parse_text_format` gives to a non-table, non-hyperlink shape (TextSpan.py L300-325): thickness `hRect`
relative to the span, distance `d` of the shape's top to the span's bottom, `isMain` = large overlap. The previous type is
kept when the shape is thick but not a highlight. -/
def decideType (old : RType) (color : ℤ) (hRect hSpan d : ℚ) (isMain : Bool) : RType :=
  if 1 / 2 * hSpan ≤ hRect then (if color ≠ white ∧ isMain then .highlight else old)
  else if d ≤ 1 / 4 * hSpan then .underline
  else if 35 / 100 * hSpan < d ∧ d < 3 / 4 * hSpan then .strike
  else .undefined

/-- `TextSpan._parse_text_format` (TextSpan.py L277-336): new type of the shape and the style to append, if any. -/
def parseFormat (spanBox : Rect) (rect : Shape) (horizontal : Bool) : RType × Option Style :=
  if rect.type = .border ∨ rect.type = .shading then (rect.type, none)
  else if rect.type = .hyperlink then (rect.type, some ⟨.hyperlink, rect.color, some rect.uri⟩)
  else
    let e (r : Rect) := El.ext (!horizontal) r
    let hRect := (e rect.bbox).2 - (e rect.bbox).1
    let hSpan := (e spanBox).2 - (e spanBox).1
    let d := |(e spanBox).2 - (e rect.bbox).1|
    let t := decideType rect.type rect.color hRect hSpan d (El.mainBbox spanBox rect.bbox factorMajor).isSome
    if t = .undefined then (t, none) else (t, some ⟨t, rect.color, none⟩)

/-- Boxes of the left, middle and right parts (TextSpan.py L222-270). -/
def partBoxes (s r : Rect) (horizontal : Bool) : Rect × Rect × Rect :=
  let i := r.inter s
  if horizontal then
    (⟨s.x0, s.y0, i.x0, s.y1⟩, ⟨i.x0, s.y0, i.x1, s.y1⟩, ⟨i.x1, s.y0, s.x1, s.y1⟩)
  else
    (⟨s.x0, i.y1, s.x1, s.y1⟩, ⟨s.x0, i.y0, s.x1, i.y1⟩, ⟨s.x0, s.y0, s.x1, i.y0⟩)

/-- First index of a character satisfying `p` (`index_chars[0][0]`), `-1` if none. -/
def firstIdx (p : Chr → Bool) (cs : List Chr) : ℤ :=
  match cs.findIdx? p with
  | some i => i
  | none => -1

/-- `TextSpan.split` (TextSpan.py L205-274): the parts and the (possibly changed) type of the shape. -/
def Span.split (s : Span) (rect : Shape) (horizontal : Bool) : List Span × RType :=
  if (rect.bbox.inter s.bbox).truthy = false then ([s], rect.type)
  else
    let p : Chr → Bool := fun c => c.containedIn rect.bbox horizontal
    let length := s.chars.countP p
    let pos := firstIdx p s.chars
    let posEnd := max (pos + length) 0
    let (bl, bm, br) := partBoxes s.bbox rect.bbox horizontal
    let left := if 0 < pos then [{ s with chars := s.chars.take pos.toNat, bbox := bl.round }] else []
    let fmt := parseFormat bm.round rect horizontal
    let mid := if 0 < length then
        [{ s with chars := (s.chars.take posEnd.toNat).drop pos.toNat, bbox := bm.round,
                  style := s.style ++ fmt.2.toList }]
      else []
    let right := if posEnd < s.chars.length then [{ s with chars := s.chars.drop posEnd.toNat, bbox := br.round }] else []
    (left ++ mid ++ right, if 0 < length then fmt.1 else rect.type)

/-- An entry of `line.spans`: an image (box and picture) or a text span. -/
inductive Item where
  | image (bbox : Rect) (pic : ℕ := 0)
  | text (s : Span)
  deriving DecidableEq

/-- Box of an entry. -/
def Item.bbox : Item → Rect
  | .image b _ => b
  | .text s => s.bbox

/-- Splitting all spans of one line with one shape (text/Lines.py L279-291); the shape's type is threaded through. -/
def splitItems (rect : Shape) (horizontal : Bool) : List Item → List Item × RType
  | [] => ([], rect.type)
  | .image b n :: is =>
    let (r, t) := splitItems rect horizontal is
    (.image b n :: r, t)
  | .text s :: is =>
    let (ss, t) := s.split rect horizontal
    let (r, t') := splitItems { rect with type := t } horizontal is
    (ss.map .text ++ r, t')

/-- One shape applied to one line (text/Lines.py L270-293): `line.spans.reset` drops entries without box. -/
def applyShape (rect : Shape) (horizontal : Bool) (items : List Item) : List Item × RType :=
  let (r, t) := splitItems rect horizontal items
  (r.filter fun i => i.bbox.truthy, t)

/-- A sequence of shapes applied to one line. -/
def applyShapes (horizontal : Bool) (items : List Item) (rects : List Shape) : List Item :=
  rects.foldl (fun is r => (applyShape r horizontal is).1) items

/-! ## Blanks -/

/-- `TextSpan.lstrip` on the characters (L152-161); `ws` is Python's `str.isspace`. -/
def lstripChars (ws : Char → Bool) (cs : List Chr) : List Chr × Bool :=
  if (cs.map Chr.c).take 2 = [' ', ' '] then
    let num := (cs.map Chr.c).length - ((cs.map Chr.c).dropWhile ws).length
    (cs.drop (num - 1), true)
  else (cs, false)

/-- `TextSpan.rstrip` on the characters (L164-173); `chars[:1-n]` with `n ≥ 2`. -/
def rstripChars (ws : Char → Bool) (cs : List Chr) : List Chr × Bool :=
  if (cs.map Chr.c).reverse.take 2 = [' ', ' '] then
    let num := (cs.map Chr.c).length - ((cs.map Chr.c).reverse.dropWhile ws).length
    (cs.take (cs.length - (num - 1)), true)
  else (cs, false)

/-- `Spans.strip` on a list of text spans' characters (text/Spans.py L37-53): `stripped or right_span.rstrip()` does not
call `rstrip` when the left side was stripped. Image spans at the ends are not touched (`none`). -/
def stripSpans (ws : Char → Bool) (spans : List (Option (List Chr))) : List (Option (List Chr)) × Bool :=
  match spans with
  | [] => ([], false)
  | first :: rest =>
    let (first', st) := match first with
      | some cs => ((some (lstripChars ws cs).1 : Option (List Chr)), (lstripChars ws cs).2)
      | none => (none, false)
    let l := first' :: rest
    match l.getLast? with
    | some (some cs) =>
      if st then (l, true) else (l.dropLast ++ [some (rstripChars ws cs).1], (rstripChars ws cs).2)
    | _ => (l, st)

/-- `Line.text` (text/Line.py L53-57): every span's text is stripped before joining. -/
def strip (ws : Char → Bool) (t : List Char) : List Char := ((t.dropWhile ws).reverse.dropWhile ws).reverse

/-- `Line.text` for text spans. -/
def lineText (ws : Char → Bool) (spans : List Span) : List Char := (spans.map fun s => strip ws s.text).flatten

/-! ## Rendering of a span -/

/-- What a span adds to a paragraph. -/
inductive Run where
  | plain (t : List Char)
  | link (uri : String) (t : List Char)
  deriving DecidableEq

/-- Text of a run. -/
def Run.text : Run → List Char
  | .plain t => t
  | .link _ t => t

/-- `TextSpan.make_docx` (L368-387): the first hyperlink style decides. -/
def Span.makeDocx (ws : Char → Bool) (s : Span) : Run :=
  match s.style.find? fun st => decide (st.type = .hyperlink ∧ strip ws s.text ≠ []) with
  | some st => .link (st.uri.getD "") s.text
  | none => .plain s.text

/-- Font size written to the docx and the character scaling (`_set_text_format`, L413-422). Division by zero raises. -/
def fontSize (size : ℚ) : Except Err (ℚ × Option ℚ) :=
  let fs : ℚ := (roundHE (size * 2) : ℚ) / 2
  if fs = 0 then .error .zeroDiv
  else
    let scale := size / fs
    .ok (fs, if 1 / 100 ≤ |scale - 1| then some scale else none)

/-- Font flags (`_set_text_format`, L401-403): superscript, italic, bold. -/
def fontFlags (flags : ℕ) : Bool × Bool × Bool := (flags &&& 2 ^ 0 != 0, flags &&& 2 ^ 1 != 0, flags &&& 2 ^ 4 != 0)

/-- `constants.DICT_FONTS` (common/constants.py L35-63). -/
def dictFonts : List (String × String) :=
  [("SIMSUN", "宋体"),
   ("SIMHEI", "黑体"),
   ("MICROSOFTYAHEI", "微软雅黑"),
   ("MICROSOFTJHENGHEI", "微软正黑体"),
   ("NSIMSUN", "新宋体"),
   ("PMINGLIU", "新细明体"),
   ("MINGLIU", "细明体"),
   ("DFKAISB", "标楷体"),
   ("FANGSONG", "仿宋"),
   ("KAITI", "楷体"),
   ("FANGSONGGB2312", "仿宋_GB2312"),
   ("KAITIGB2312", "楷体_GB2312"),
   ("LISU", "隶书"),
   ("YOUYUAN", "幼圆"),
   ("STXIHEI", "华文细黑"),
   ("STKAITI", "华文楷体"),
   ("STSONG", "华文宋体"),
   ("STZHONGSONG", "华文中宋"),
   ("STFANGSONG", "华文仿宋"),
   ("FZSHUTI", "方正舒体"),
   ("FZYAOTI", "方正姚体"),
   ("STCAIYUN", "华文彩云"),
   ("STHUPO", "华文琥珀"),
   ("STLITI", "华文隶书"),
   ("STXINGKAI", "华文行楷"),
   ("STXINWEI", "华文新魏"),
   ("ARIALNARROW", "Arial Narrow")]

/-- Normalised key of a font name (TextSpan.py L83): blanks, `-`, `_` removed, upper case. Upper case is that of ASCII letters
(Python also maps a few other letters to ASCII ones). -/
def fontKey (name : List Char) : List Char :=
  (name.filter fun c => c ≠ ' ' ∧ c ≠ '-' ∧ c ≠ '_').map Char.toUpper

/-- The part of a font name between the last `+` and the next `-` (TextSpan.py L79-80). -/
def fontBase (raw : List Char) : List Char :=
  ((raw.reverse.takeWhile (· ≠ '+')).reverse).takeWhile (· ≠ '-')

/-- `TextSpan.font` (TextSpan.py L66-87). -/
def fontOf (raw : List Char) : List Char :=
  let name := match dictFonts.find? (fun e => e.1.toList = fontKey (fontBase raw)) with
    | some e => e.2.toList
    | none => fontBase raw
  name.map fun c => if c = ',' then ' ' else c

end Text
