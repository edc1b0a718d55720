import Mathlib.Data.List.Basic
import Mathlib.Data.List.Infix
/-! # The texts in a content stream of a PDF page (ISO 32000, 7.3.4.2: literal strings) -/

namespace Spec

/-- State while reading a stream: outside a string, or inside with the number of open inner parentheses, whether the next character is escaped, and the characters so
far (last first). -/
abbrev Scan := Option (ℕ × Bool × List Char)

/-- Reading one character: the new state, and the string if it is complete. -/
def scanStep : Scan → Char → Scan × List (List Char)
  | none, c => if c = '(' then (some (0, false, []), []) else (none, [])
  | some (d, true, acc), c => (some (d, false, c :: acc), [])
  | some (d, false, acc), c =>
    if c = '\\' then (some (d, true, c :: acc), [])
    else if c = '(' then (some (d + 1, false, c :: acc), [])
    else if c = ')' then
      match d with
      | 0 => (none, [acc.reverse])
      | d + 1 => (some (d, false, c :: acc), [])
    else (some (d, false, c :: acc), [])

/-- The strings completed from a state on; `none` if the stream ends inside a string. -/
def scan : Scan → List Char → Option (List (List Char))
  | none, [] => some []
  | some _, [] => none
  | st, c :: l => (scan (scanStep st c).1 l).map ((scanStep st c).2 ++ ·)

/-- The strings (texts shown) of a content stream. -/
def texts (s : List Char) : Option (List (List Char)) := scan none s

example : texts "BT /F1 12 Tf (Hello) Tj (a\\)b (c)) Tj ET".toList = some ["Hello".toList, "a\\)b (c)".toList] := by decide +kernel

/-- The text contains none of the pairs of letters `BT`, `Tm`, `Td`. -/
def CleanText (t : List Char) : Prop := ¬ ['B', 'T'] <:+: t ∧ ¬ ['T', 'm'] <:+: t ∧ ¬ ['T', 'd'] <:+: t

end Spec
