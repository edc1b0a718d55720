# Formal model of pdf2docx in Lean 4

Source: `/repo` (dothinking/pdf2docx, pinned). The code is never run; it is read as text. Line
numbers in the Lean comments refer to files below `/repo/pdf2docx/`.

## 1. Trusted base

* **Lean 4.33.0's kernel**, and the three standard axioms `propext`, `Classical.choice`,
  `Quot.sound` (Mathlib tactics such as `linarith`, `ring`, `omega` introduce them). No axiom is added;
  no compiled evaluation (`native_decide`, `bv_decide`) is used.
* **My reading of the code.** The model is written by hand, one Lean definition per Python function
  (or per branch-complete part of it), each with a comment giving file and lines.
* **Python semantics** written out in `Verif/Py.lean`: slices, `range`, truthiness, `round`
  (half to even), `int()` truncation, `str.replace`, `str.split`, stable sort, `dict.update`.
* **Idealisation of numbers**: coordinates, sizes and colours are rationals (`Rat`), so IEEE rounding, NaN
  and infinities are not modelled. `round(x, 1)` is exact half-to-even rounding to tenths.
* **Python set iteration order** is a parameter: theorems quantify over every order.
* **Exceptions** are `Except` values; a model function that can raise says so in its type.
* **PyMuPDF `fitz.Rect` 1.18** (not part of the repo), assumed as follows: `bool(r)` is false iff all
  four coordinates are 0; `r.isEmpty` iff `x0 = x1` or `y0 = y1`; `a & b` is `Rect()` if an operand is
  empty or the intersection is inverted, else the coordinate-wise intersection; `a | b` ignores an empty
  operand; `contains`, `intersects`, `getArea` accordingly.
* **python-docx and Word** (not part of the repo): `add_paragraph`/`add_section`/`add_table` append to the body in
  order; a new document has one section and one new table has `r x c` separate cells; `table.cell(i, j)` is the
  cell that covers grid position (i, j); `a.merge(b)` covers the bounding region of two single positions and raises
  otherwise; `Pt(x)` keeps the value. What Word *renders* is outside; only the document data is modelled.
* **Outside the model**: PDF parsing by MuPDF, python-docx/lxml XML writing, image decoding, the OS,
  process pool, JSON text encoding (the data written is modelled, the text is not), debug plotting,
  performance. These appear as parameters (e.g. "the outcome of parsing page i").

## 2. Layout of the Lean project

* `Verif/Py.lean` – Python primitives; `Verif/<Area>.lean` – the model of an area of the code, with helper lemmas;
* `Verif/Spec/*.lean` – small specifications independent of the model;
* `Verif/Props/*.lean` – the property theorems only, each with a non-vacuity `example` beside it.

A property that is false of the code gets (a) a theorem refuting it, with a concrete witness or for a whole class of
inputs, and (b) a `_partial` theorem under the exact extra condition that makes it true.

## 3. Plan per property

| id | modelled | proof |
|----|----------|-------|
| C01 | `_page_indexes` | filter characterisation, induction over the list |
| C02 | `_page_indexes` + Python slice semantics + `parse`'s truthiness default | arithmetic over slices; refuted at `end=0` and for empty selections |
| C03–C06 | converter as a state machine over pages (`unparsed/parsed/stale`), page outcome as parameter | invariant over histories, fold induction |
| C07–C09 | `make_docx` as a list of file-system steps (crash points = prefixes); `str.replace` | case analysis; C08 and C09 refuted, partial versions proved |
| C10 | `main.py` shifting + `_page_indexes` | arithmetic; refuted at `end=1` |
| C11–C13 | `_parse_pages_per_cpu`, merging of worker files | arithmetic on segments, commutation of restores; C11 refuted (gaps, empty segment) |
| C14, C15 | store/restore of documents and of the layout tree | structural induction; C15 refuted for floating images and stream tables |
| C16 | `__getitem__` | slice arithmetic; refuted for negative stops |
| C17 | `init_settings` | finite map lemmas |
| C18–C20 | `share.py` colours | integer division/modulus arithmetic, rational bounds |
| C21 | `graph_bfs` | worklist invariant, reachability |
| C22, C23 | `solve_rects_intersection`, `_stab` | induction on recursion; C23 refuted with ties, proved if no earlier box has a side at the left side |
| C24–C26 | `Element`, `Collection`, `Rect` | rational linear arithmetic |
| C27 | the sorts | permutation, sortedness |
| C28–C30 | `TextSpan.split`, strips | list induction |
| C31–C33 | docx body as list of elements | list induction |
| C34 | `_cal_margin` | linear arithmetic |
| C35, C36 | `Path` | list induction, geometry |
| C37 | `Shapes` clean up | invariants of folds |
| C38–C41 | `TableStructure`, `TableBlock` | grid induction; C40, C41 refuted |
| C42 | `Border` | history invariant |
| C43, C44 | block/line/char assignment | conservation by induction; refuted at boundary cases |
| C45, C46 | `TextBlock` spacing | linear arithmetic, case analysis |
| C47 | `ImagesExtractor` | refuted (same rounded bbox), partial |
| C48 | `Collection.split_with_intersection` | partition by induction; refuted for threshold 0 |
| C49, C73 | `TableBlock.text`, `Cell.text` | list induction; C49 refuted (blanks between spans) |
| C50, C51 | `TextSpan.make_docx`, `TextBlock.make_docx` | list induction; exact raising set of sizes |
| C52–C54 | indents, vertical spacing, tab stops | linear arithmetic over histories of blocks; counterexamples |
| C55–C57 | `Path`/`Paths` to strokes and fills, shape roles | list induction, geometry |
| C58–C62 | `TableStructure` borders, merging, shading | grid invariants; refuted corner cases |
| C63, C64, C76–C79 | `Border`, `TablesConstructor` stream tables | invariants over every history of border calls, recursion measure |
| C65, C66, C75 | `extract_tables`, font names, hyperlinks | history induction, finite string lemmas |
| C67–C71 | `Lines`, `Blocks`: sort, join, split back, floats | permutations, connectivity (C21), every set order |
| C72 | boxes of split spans | interval arithmetic |
| C74 | vector graphics clipped to pictures | contours as arbitrary boxes |
| C80, C81 | `page_layout` two-column detection | linear arithmetic; refuted corner cases |
| C82 | nested lattice groups | composition of C21/C22 with containment |
| C83, C84 | `Layout.parse` recursion with table detection as arbitrary function | induction on stage/fuel-free recursion |
| C85, C86 | whole pipeline from extracted page to docx body | composition of all earlier theorems |
| C87–C89 | `Cell.make_docx` on a grid of merged cells | grid induction |
| C90 | the pipeline with the concrete detection of tables (`Detect`) on pages without vector graphics | composition; refuted for full-width and for short lines |
| C91 | `lattice_tables` on a page with drawn tables: connectivity of strokes, grouping of lines, outer borders, merged cells | sweep + BFS + grid induction; refuted for aligned tables and thick pieces |
| C92, C96, C97 | the closed layout model `Full` (text, strokes, fills, links; every detection function concrete) on pages with one drawn grid, without tables, with one coloured area | invariants of the stages of `parse`; composition of C91, C43, C44, C71, C80 |
| C93, C94, C100, C101 | runs, links, unnamed fonts, pictures written (`Run`, `Format`, `Source`, `Write`) | list induction; characterisation of `split`; refuted: superscript, links, vertical text, stretched pictures |
| C95, C104, C105 | where shapes of a layout end up; what the borders and backgrounds of cells come from; which strokes a stream table marks | induction over the stages of `Full`, exact characterisations |
| C98, C99 | blanking of picture areas before contours are searched; hiding the text in the content stream | interval arithmetic; history induction over reads; refuted at the page edge and for texts with BT/Tm/Td |
| C102, C103 | `Pt`, `round` of written distances, row heights | error bounds by induction over any number of rows |
| C106 | `Path` area test on triangles and ellipses | polygon arithmetic |
| C107 | `Lines.is_flow_layout` | connected components (C21) |
| C108 | `Whole`: extracted page to docx body with nothing about tables given | composition of C68, C70, C86, C92, C31 and the rendering of tables |
| C109 | `Draw`: paths grouped by connectivity, segments, `Shapes.clean_up` on strokes with centre lines | C22, C55; fold over shapes with nothing to merge; `dr_clean_refines` relates it to `Shapes` |
| C110 | `Draw.convertDoc`: drawing commands to docx body | C109 turns the page into one of C108 |
| C111 | `Whole.convert` and `Draw.convertDoc`, pages of text | clean-up keeps one column of lines; C96 shows no table is found; paragraphs show the lines sorted by y |
| C112 | `Draw.shapes`, `Draw.cleanUp` with filled rectangles | as C109, fills converted; an invariant of the merging loop for the centre lines |
| C113 | closed model `Draw.convertDoc`, no condition on drawings | invariants through clean-up, joining, layout (C83), rendering and sections; exceptions by refinement to C83 |
| C114 | `Whole.convert`, `Draw.convertDoc` on pages with a coloured area | composition of C97, clean-up of columns (as C111) and C112 |
| C115 | `Full.parsePage` on pages with a drawn grid and filled areas behind its cells | as C92; a lattice table picks for each cell the area behind it, which is then typed and ignored by the stream stage |
| C116 | decorations of text (Styl.blocksFormat over Text.Span.split, then Run.format); generic invariant over the parts of a span (`PartOK`) with a `Reader` saying which marks are looked for, shared with C94 | induction over blocks, shapes, lines, entries and parts; partial, refuted for indefinite and white areas |
| C117 | `Deco` (Styled.lean): extracted page to styled runs of the document, with the shapes that style text computed | composition of C111's parse of text pages, the candidates of `_parse_text_format` and C116; `sy_refines`: erasing the styles gives `Full.parse` |
| C118 | `Deco.convert` against `Whole.convert` on every document | refinement: erasing styles gives `Full.parse` (`sy_refines`), styling keeps the entries of every line (invariant `Kept` of C28, induction over shapes, lines, blocks and nested layouts), rendering is natural in the contents |
| C119 | `Deco.layout` and `Deco.convert` on every document | invariant of spans (each decoration comes from a drawn shape, boxes in tenths) through splitting, lines, blocks, cells; shapes of cells are shapes of the page (C104) |
| C120 | `Pose` (Pose.lean): extracted page to docx with all paragraph formats and margins computed | simulation with `Deco` under any given formats (`withFormats`), then transfer of C108, C111, C113, C119; no division by zero since rows have proper boxes |
| C121 | `Pose.convert` on pages of text in one column, positions as a word processor sets them (`Spec.bottoms`) | styling keeps line boxes (induction over shapes and lines), rows are single lines, then the spacing invariants C53, C102 (drift) along the column, with the page's margin as the start |
| C122 | `Pose.convert` on pages of text in one column, row starts as a word processor sets them (`Spec.rowStarts`, tabs pressed one by one) | rows are single lines (grouping of a relation that never holds), case analysis of the alignment by flush edges, C54 for tabs; four refutations on converted pages |
| C123 | Where the paragraphs of a section end (C121's positions), the bottom margin as written, and the page height. | From C121 (each paragraph ends within 0.05pt per row and 0.1pt per paragraph of its last line) and the margin (C34): with enough room below the text the last paragraph ends above the bottom margin; refutation for text reaching down to the end of the page. |
| C124 | The page-layout stage with the other stages of the layout (Full.lean) on a page of text in two columns: one table of two cells, what each shows. | The stage makes the table (C80); no other stage finds shapes on a page of links; blocks with lines in both columns are split into the cells (C81's thresholds, via the reach of the block), cells parsed as columns of text (fc_column); headings and notes stay outside. From the extracted page to the document: cleaning up keeps the arrangement, or joins blocks of the two columns (as in C108), and the document shows the parsed page. Refutation for a block reaching little into a column. |
| C125 | Formats of a layout (Pose.lean) of vertical text blocks and of the turned ones: grouping into rows, alignment, indents, tab stops, line breaks, line and paragraph spacing, what is written. | Equivariance: every ingredient is shown invariant under (x, y) to (H - y, x), by induction on lines and blocks; extents become H minus themselves, spreads and distances stay. The first line indent changes sign and tabs differ, which are errors of the code (C52, C54). |
| C126 | The whole conversion (Pose.lean) of a page of text; breaks after the lines of its paragraphs. | Through C121's paragraphs (each line in a row of its own, boxes kept by styling); the flags by induction on the lines, the space beside a line from the written indents and margins up to rounding (1/20). |
| C127 | `Pose.convert` on pages with a drawn grid; `Spec/TablePlaces.lean` says how a word processor sets the body of a section (`bodyEnds`) | `tq_layout`: the written blocks follow `Spacing.parseSpacing` of the measured ones; `C53_vertical_positions_partial` and `C102_drift` for their ends; `fy_grid_core` and `fb_lattice` for the table and its border; styling moves no line (`tq_parse`) |
| C128 | `Pose.convert` on the pages of C127; `Spec/TableRows.lean` puts together what C122 and C126 say of a paragraph | `tr_layout`: every block of a layout is written by itself with the layout's box; `hz_paragraph`, `lb_paragraph` for each paragraph of `tq_deco` |
| C129 | `Pose.convert` on the pages of C127, the cells of the table | `fy_grid_core` with the shape of the blocks in each cell (`fc_column_text`), `fb_lattice` for the area inside the borders (`CellLaid`), `tr_cells`, then C121/C122/C126 within the cell (`cp_cell`) |
| C130 | `Pose.convertFrames` (Frames.lean): indent, cell widths and borders written for the tables of a document; `Spec.columnEdges` adds them up from the left edge of the page | the layout is the one of C127 (`tq_deco` with the box and borders of each cell), `tr_layout` for the indent; the edges by induction on the columns. For any page (`C130_any_table`): the tables written against those found. `C130_same_tables`: they are the tables of the document `Pose.convert` gives |
| C131 | the backgrounds in `Pose.convertFrames` on the pages of C127 | the proof of C115 for a cell (`fq_colours`), carried through `tq_deco` and `tr_cells` to the cells written; `Spec/Colours.lean` states the claim for both |
| C132 | `Pose.convertTabs` (NestedFrames.lean): as C130, with the tables in cells; `Spec/NestedFrames.lean` says what should be written of the layout found | mutual induction over blocks and cells with `tr_layout` for each layout; no hypothesis on the page |
| C133 | the borders and backgrounds in `Pose.convertTabs` | C104 (any layout) through `Deco` (`sy_refines`), then C132 and mutual induction over tables and cells |
| C134 | spaces of paragraphs in `Pose.convert` | `dn_*`: mutual induction over blocks and cells with `tr_layout`; `Write.written` clips at zero |

The status of each property, its theorems and what is missing are in `MANIFEST.json` (regenerated by
`scripts/manifest.py` from the theorem names in `Verif/Props`).

## 4. What is modelled

| Lean module | code | remarks |
|-------------|------|---------|
| `Converter`, `ConverterMulti`, `ConverterHistory`, `Settings` | `converter.py`, `main.py`, page state of `page/Page.py` | a page's parsing outcome is a parameter; the file system is a list of steps, a crash is a prefix; the process pool is any permutation of the workers |
| `Color`, `Graph`, `Sweep` | `common/share.py` | sets iterate in any order |
| `Geom`, `Collection`, `Sort` | `common/Element.py`, `common/Collection.py` | fitz.Rect as in section 1 |
| `Lines`, `TextSpan`, `Para`, `Spacing` | `text/*.py`, `common/Block.py`, spacing part of `page/Blocks.py` | font metrics are given numbers |
| `Path`, `Shapes` | `shape/*.py` | raw drawing commands as given by PyMuPDF |
| `Table`, `Border`, `Stream`, `Lattice`, `Columns` | `table/TableStructure.py`, `Border.py`, `TablesConstructor.py` | strokes and fills are boxes with colour |
| `Assign`, `Layout` | `table/Cell.py`, `page/Layout.py`, assignment part of `page/Blocks.py` | table detection is an arbitrary function of the layout (oracle) |
| `Page`, `Images` | `page/Page.py` margins, `page/RawPage.py`, `image/ImagesExtractor.py` | pixel data opaque, OpenCV contours given |
| `Store` | `store`/`restore` of every class | the stored dictionaries as a tree; JSON and base64 text assumed faithful |
| `Docx`, `CellDocx` | `make_docx` of pages, blocks, tables, cells; `common/docx.py` cell helpers | the docx body as a tree; `CellDocx` does not assume that cells tile, `Docx` does (`C89_rendering_partial` relates them) |
| `Detect` | `TablesConstructor.page_layout_table`, `lattice_tables`, `stream_tables` put together, without strokes | instantiates the oracle of `Layout` |
| `Pipe` | the composition of the above, from raw blocks to docx body | fonts, styles and metrics as opaque values attached to spans |
| `Run`, `Format` | `TextSpan.make_docx` run properties, `TextSpan.split`/`intersects`, `Shape.parse_semantic_type`, `Lines.parse_text_format` | formats as records; a hyperlink is an URI on a run |
| `Source` | `RawPage` text of a content stream, `ImagesExtractor` blanking, unnamed fonts | a content stream is a list of characters; rows and columns of a bitmap as indices with numpy slice semantics |
| `Write` | picture size (`add_image`), distances written, row heights | EMU are integers, `Pt` truncates as in python-docx |
| `Full` | `Layout.parse` with text and shapes, all of `TablesConstructor`, `Cell`, `TableBlock` | closed: only the identity of new blocks, the order of sets and which shapes style text (computed in `Styled`) are parameters. `fl_refines` shows that erasing the shapes gives a run of `Layout` |
| `Whole` | clean-up, `Full`, rendering put together | `shapes` are those after `Shapes.clean_up` (see `Shapes`). The working area (page box without margins) is a field of the page, free in the theorems; `Page.workArea` is what the code computes (C34) |
| `Styled` (namespace `Deco`) | `Layout.parse` with `_parse_text_format` and text rendering, on top of `Full` and `Format` | computes the parameter `Format` of `Full`; runs are represented by the spans they are written from |
| `Pose` | as `Styled`, with `Blocks.parse_spacing`, alignment, line breaks, tab stops, margins and sections computed | nothing of a page is given but what PyMuPDF extracts, drawings after clean-up, identities of new objects; lengths not truncated to EMU here (`Write`) |
| `Frames` | `TableBlock.make_docx` (indent), `Cell.make_docx`/`_set_style` (width, borders, background) for the tables of a page, on the layout of `Pose` | cell by cell mechanics in `CellDocx` (C87); colours of borders and row heights left out, no truncation to EMU |
| `NestedFrames` | as `Frames`, with the tables in the cells (`Cell.make_docx`) | as `Frames` |
| `Draw` | `_preprocess_shapes`, `Shapes.restore`, `clean_up` in front of `Whole` | pictures of vector graphics are given with the page |

Not modelled: MuPDF extraction, image decoding and recoding, OpenCV, debug plots, logging, the tkinter GUI, XML
serialisation, performance, floating point error.

## 5. Findings

Each `_refuted_` theorem is a proof, by evaluation in the kernel or for a class of inputs, that the property as a user
would state it fails in the code. The main ones: `end=0` converts everything (C02); the default output
name of `X.PDF` is the PDF itself (C09); an existing docx is removed before the new one is saved (C08); gaps in `pages` are
ignored by multi-processing (C11); floating images are lost by store/restore (C15); aligned rectangles are not reported
as intersecting (C23); a box drawn in the corner of a box gives overlapping merged cells, and the docx then lacks or repeats
content or raises (C40, C89); text over a cell corner is lost, text on a border is doubled (C44, C84); the second of two
overlapping lines is dropped (C68); blank pages get a stray layout table (C80); one auxiliary border of a borderless
table is lost by a missing call (C63); full-width text gets an empty table, short lines become a two-column table (C90); a
drawn table below another one can lose a column, a thick piece of a line makes cells merge (C91); merged docx cells get repeated margin elements, which is invalid Open XML (C88);
a table in a column of the page appears twice (C92); superscript is never written (C93); links are lost or spread to other text when shapes overlap or when an area
sticks out of a table (C94, C95); a white area on a page without other drawing, and black text on black, behave differently from other colours (C97); a picture at the
page edge is clipped a second time (C98); texts with the letters BT, Tm or Td are changed by reading a page twice (C99); stretched pictures lose their height (C101); exact row
heights cut 1.3pt after 31 rows (C102); filled dots become filled squares (C106); hairlines are dropped (C109).

## 6. Wrong programs

`scripts/mutate.py` applies one edit to the model in a scratch copy, rebuilds, and logs which theorems fail in
`seeded/LOG.jsonl`. Survivors led to tightened theorems (`Props/Tight*.lean`, `Props/StreamTight.lean`) or are logged as
outside the claim. In addition 554 mutants were generated automatically (swapped comparisons, constants, branches, arguments, dropped
updates in every definition of the model): 398 were caught at once, 24 survivors after tightening, 91 did not compile; the rest is logged with the reason (equivalent
on all reachable inputs, or outside every claim).
