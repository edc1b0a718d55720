import Verif.Num
/-! # Rendering blocks into a docx

Models `Blocks.make_docx` (page/Blocks.py L501-559), `Cell.make_docx` (table/Cell.py L144-178, contents only),
`TableBlock.make_docx`/`Row.make_docx` (iteration over rows and columns) and `Page.make_docx` (page/Page.py L179-208), on an
abstract docx.

`python-docx` (not in the repository, part of the trusted base):
* `add_paragraph` appends a paragraph, `Document.add_table` appends a table, `_Cell.add_table` appends a table *and an empty
  paragraph*;
* `Document.add_section` appends a paragraph that carries the properties of the section ended, so it is in `doc.paragraphs`;
* `doc.paragraphs` are the paragraphs directly below the body or the cell;
* a new document has no paragraph and one section; a new cell has one empty paragraph.

Simplifications: the content written for a text block is an opaque value `α` (see `TextSpan.lean`, `Para.lean`), an image is
an opaque `ι`; tables are given by their rows (rectangular, see `Table.lean`), `none` marks a position merged away.
Every cell is given its own place in the docx table: this is so if the cells of the table tile its grid (`C89_rendering_partial` in
`Props/CellDocx.lean`); for overlapping cells or cells reaching over the edge see `C89_refuted_overlap`, `C89_refuted_raises`. -/

namespace Docx

/-- A parsed block (text/inline image, table with its height of blank space above, floating image). -/
inductive Block (α : Type) where
  | text (a : α)
  | table (before : ℚ) (rows : List (List (Option (List (Block α)))))
  | floatImg

/-- An element of a docx body or cell: a paragraph (content, exact line spacing of blank paragraphs, anchored images), a
section-break paragraph with the properties of the section it ends, or a table. -/
inductive Item (α ι π : Type) where
  | para (content : Option α) (spacing : Option ℚ) (floats : List ι)
  | sect (props : π) (floats : List ι)
  | table (rows : List (List (Option (List (Item α ι π)))))

variable {α ι π : Type}

/-- Member of `doc.paragraphs`. -/
def Item.isPara : Item α ι π → Bool
  | .table _ => false
  | _ => true

/-- `constants.MIN_LINE_SPACING` (constants.py L22). -/
def minLineSpacing : ℚ := 7 / 10

/-- An empty paragraph as created by `python-docx`. -/
def emptyPara : Item α ι π := .para none none []

/-- Dummy paragraph above a table (page/Blocks.py L511-514). -/
def spacer (before : ℚ) (preTable : Bool) : List (Item α ι π) :=
  if minLineSpacing ≤ before ∨ preTable = true then [.para none (some ((Py.trunc (10 * before) : ℚ) / 10)) []] else []

/-- Number of blank paragraphs added at the end (L507-517): the loop over the reversed blocks skips floating images and stops
at a text block, but not after the first table. -/
def trailing : List (Block α) → ℕ
  | .floatImg :: bs => trailing bs
  | .table _ _ :: bs => trailing bs + 1
  | _ => 0

/-- Attach images to the last paragraph of the container (L519-522); if there is no paragraph a new one is added. -/
def addFloats (floats : List ι) (body : List (Item α ι π)) : List (Item α ι π) :=
  if body.any Item.isPara then
    let go : List (Item α ι π) → List (Item α ι π) := fun rev =>
      let pre := rev.takeWhile (fun i => !i.isPara)
      match rev.dropWhile (fun i => !i.isPara) with
      | .para c s fs :: rest => pre ++ .para c s (fs ++ floats) :: rest
      | .sect p fs :: rest => pre ++ .sect p (fs ++ floats) :: rest
      | rest => pre ++ rest
    (go body.reverse).reverse
  else body ++ [.para none none floats]

mutual
/-- The loop over the blocks (L485-498). `inCell` tells whether the container is a table cell. -/
def renderBlocks (inCell : Bool) : List (Block α) → Bool → List (Item α ι π)
  | [], _ => []
  | .text a :: bs, _ => .para (some a) none [] :: renderBlocks inCell bs false
  | .table before rows :: bs, pre =>
    spacer before pre ++ .table (renderRows rows) :: ((if inCell then [emptyPara] else []) ++ renderBlocks inCell bs true)
  | .floatImg :: bs, pre => renderBlocks inCell bs pre
/-- `TableBlock.make_docx`: row by row. -/
def renderRows : List (List (Option (List (Block α)))) → List (List (Option (List (Item α ι π))))
  | [] => []
  | r :: rs => renderRow r :: renderRows rs
/-- `Row.make_docx`: cell by cell. -/
def renderRow : List (Option (List (Block α))) → List (Option (List (Item α ι π)))
  | [] => []
  | c :: cs => renderCell c :: renderRow cs
/-- `Cell.make_docx` (Cell.py L144-178): merged positions are skipped, a cell without blocks keeps its empty paragraph. The
test `isinstance(self.parent, Cell)` (Blocks.py L538) never succeeds – the parent is the cell's layout –, so the code for the
page level runs in cells too. -/
def renderCell : Option (List (Block α)) → Option (List (Item α ι π))
  | none => none
  | some [] => some [emptyPara]
  | some (b :: bs) => some (addFloats [] (renderBlocks true (b :: bs) false ++
      List.replicate (trailing (b :: bs).reverse) (.para none (some minLineSpacing) [])))
end

/-- `Blocks.make_docx` at page level (L463-522), for a container with the given content. -/
def makeBlocks (blocks : List (Block α)) (floats : List ι) (body : List (Item α ι π)) : List (Item α ι π) :=
  addFloats floats (body ++ renderBlocks false blocks false ++
    List.replicate (trailing blocks.reverse) (.para none (some minLineSpacing) []))

/-- A parsed page: size and margins (opaque), blocks, floating images. -/
structure PageData (α ι π : Type) where
  props : π
  blocks : List (Block α)
  floats : List ι

/-- A docx under construction: its body and the properties of the last section. -/
structure Doc (α ι π : Type) where
  body : List (Item α ι π)
  last : π

/-- `Page.make_docx` (Page.py L179-208). -/
def makePage (d : Doc α ι π) (p : PageData α ι π) : Doc α ι π :=
  if d.body.any Item.isPara then ⟨makeBlocks p.blocks p.floats (d.body ++ [.sect d.last []]), p.props⟩
  else ⟨makeBlocks p.blocks p.floats d.body, p.props⟩

/-- All pages, on a new document whose default section has the properties `p0`. -/
def makeDoc (p0 : π) (pages : List (PageData α ι π)) : Doc α ι π := pages.foldl makePage ⟨[], p0⟩

end Docx
