{
"C01": "Exact for every list and page count.",
"C02": "False at end=0 (treated as omitted, the whole rest is converted): refuted with a witness; proved whenever end is omitted or not 0.",
"C03": "False for an empty selection: parse() then finalizes nothing but make_docx of already parsed pages / whole document is attempted; see the refuted theorem. Proved for non-empty selections on a fresh converter.",
"C04": "Proved for every outcome of every page.",
"C05": "Proved for every history.",
"C06": "Proved for every history of parse/restore calls.",
"C07": "Proved.",
"C08": "False: make_docx removes the old file first; witness. The partial theorem lists exactly what can be on disk at each crash point.",
"C09": "False for names without the lower-case text .pdf (e.g. X.PDF): docx name equals the PDF name, which is removed. Partial: names containing .pdf.",
"C10": "False for end=1 (becomes 0 = omitted). Partial: everything else.",
"C100": "Proved for all spans with a character; false for vertical text (shrunk, since the length is compared with the width of the box).",
"C101": "Place and width proved (exact), height when the area has the proportions of the picture; refuted for stretched pictures.",
"C102": "Bound proved for all pages; that cell contents fit exact rows is refuted (31 rows: 1.3pt cut).",
"C103": "Proved when in each grid row a cell starts; refuted when a row is dropped (C38).",
"C104": "C104_style_drawn is unconditional (closed page model, all depths) for width/direction of borders and for backgrounds. That the drawn line is at the side of the cell is C104_at_side_partial, for strokes whose positions form no ladder (closeness within the clearance transitive); C104_refuted_ladder: with a ladder of lines the top border of a cell is styled after a line 18pt away.",
"C105": "Exact characterisation of the marks of one candidate (C105_border_marks) and what a marked line becomes (C105_marked_used). The state 'at its turn' is described with the model's byStrokes; that horizontal borders end at vertical ones (needed for the 'only if') is proved for every division (borders_crossed).",
"C106": "Triangles: C106_triangle (from 0.2pt). Ellipses drawn with four Bezier curves: C106_ellipse_partial from 90pt diameter, since the control polygon covers 89.98% of the box and the limit is 90%; C106_refuted_dot: a filled dot of 3pt is taken for a filled square. C106_position: the computed area does not depend on the position. Other shapes are not treated.",
"C107": "Proved as an equivalence for horizontal lines listed row by row and left to right within a row, with exact common top/bottom per row. Refuted for other listing orders: the gap is measured between the outer edges when the right line is listed first.",
"C108": "From the extracted page to the document tree, with nothing about tables assumed: Whole.lean chains the clean-up of Pipe.lean, the closed layout model of Full.lean and rendering. Proved for every page with one full grid and horizontal text above, below and in it (GridPage), including blocks that are joined side by side by the clean-up and split again over cells, and redundant blanks stripped. Missing: merged cells, several tables on a page, floating pictures, filled areas other than white ones and those behind cells; the condition that a cleaned-up block nearly in a cell is in it is stated on the cleaned-up page. What fails without these restrictions is shown by the refutations of C92.",
"C109": "Proved for every page of such drawings: the shapes are, up to order, the visible lines and links (C109_lines_kept). Partial because of C109_refuted_hairline: lines of width 0, which the PDF format defines as the thinnest visible line, and lines thinner than the rounding of boxes are dropped. Joined lines (polylines) are the subject of C55.",
"C11": "False: gaps inside `pages`, empty selections and idle workers. Partial: contiguous ranges without idle worker; exact characterisation in C11_exact.",
"C110": "From drawing commands to the document: Draw.lean adds paths, their grouping and the clean-up of shapes to Whole.lean. The page is described by its drawing commands (Straight, asDrawn) and the text conditions of C108; C110_painted_* allow filled rectangles behind cells, and other drawings of C112 that leave such a page. Missing: as for C108, and grids drawn with thin filled rectangles or joined lines.",
"C111": "From raw blocks and shapes (C111_text, C111_converts) or drawing commands and links (C111_drawn) to the body of the document. Missing: vertical text, lines side by side, images, and pages on which nothing lies beside anything that crosses the centre (see NotTwoColumns: on those the code may build a two-column layout table).",
"C112": "C112_shapes_kept from drawing commands to the cleaned shapes (drawings of lines and rectangles, filled or not); C112_centre_lines for any shapes with boxes in the 0.1pt grid.",
"C113": "Over the closed model Draw.convertDoc (drawings, clean-up, nested tables, paragraphs, sections), without any condition on drawings or layout; the blocks' boxes are real and nested (RawOK). Not claimed here: that nothing is lost or doubled (C84, C85, and their refutations).",
"C114": "Composition of C97 with clean-up, rendering and sections (Whole.convert), and with C112 (Draw.convertDoc). The colour of the cell is in C97 (cell.info) and its writing in C87. Partial: one area, one column, conditions on other drawings (see the refutations of C97 for what happens otherwise).",
"C115": "In the closed layout model, for the pages of C92: a cell on a coloured area with text on it has the colour of the area, and no cell has the colour of an area that is not behind it (C115_colours_partial). An area may lie behind several cells, with or without the border lines. False for cells without text (C115_refuted_no_text): an area without text on it is never taken for a background. Missing: as for C92; colours in the docx (rendering of a given colour is C104/C29).",
"C116": "Spec: Spec/Format.lean (areaOf, Under, markAt, marksOver, lineDecorated), hypotheses Fine/AllDefinite/OneBlock there. Model: Styl.blocksFormat (Format.lean), Run.format (Run.lean). C116_decorations_partial is the layout level, C116_rendered_partial the docx runs. Missing: shapes that disturb each other, white or half-covering areas (refuted: C116_refuted_neighbour, C116_refuted_white), lines over two blocks (C29_refuted_two_blocks), vertical text.",
"C117": "The composition of clean-up, table detection, re-splitting, text styling and rendering, with every step computed (model Deco, Styled.lean), proved under the conditions of C111 (one column of text, drawings that are no table, page not laid out in two columns) and of C116 (areas that do not disturb each other); white areas must lie behind a line of text. C117_runs_partial gives the run properties written to the docx. Missing: pages with tables; the cases refuted for C116 and C94. Link areas with exactly the same box have the same address in the model; spans have no font there.",
"C118": "Proved for every document whose extracted blocks have real boxes nested as a PDF delivers them (RawOK, as in C85). Compares Deco.convert (styles computed) with Whole.convert (any styles, e.g. none). C108_styled_partial transfers C108 to documents with styled text.",
"C119": "Proved for the model from extracted page to styled runs (`Deco.convert`); boxes of drawings in tenths (as `Element.update_bbox` stores them) and sound extracted text (RawOK) are assumed. The direction of the text is existential in the document theorem and exact in `C119_layout`; that borders and backgrounds decorate nothing is stated for one layout (`C119_not_borders`).",
"C12": "Proved for every range and CPU count.",
"C120": "Proved for every document of Pose.convert: contents, sections, exceptions, nothing invented, decorations drawn. The transfers of C108 and C111 to the computed formats are partial exactly as those theorems are: C120_table_partial covers pages with one ruled table, C120_text_partial pages of text in one column. Positions are not part of this property (see C45, C46, C53, C102).",
"C121": "Partial: pages of text in one column, one line in each row (as C111). The theorem gives the bottoms of paragraphs; the rows of a paragraph are evenly spaced in the docx, so rows between the first and the last may be off when the page spaces them unevenly (see C53). Heights are those of exact line spacing.",
"C122": "Partial: pages of text in one column, one line in each row. Proved for single lines and for paragraphs flush left, flush right, hanging with a ragged right edge, and flush on neither side (by tabs, or centred on the page). False (C122_refuted_*) for a first line indent, justified paragraphs with any first line indent, paragraphs centred off the middle of the page, and a right-aligned paragraph whose last of three or more rows ends elsewhere.",
"C123": "Partial: pages of text in one column as in C111, with one line in each row and exact line spacing. Proved: if below each of the n lines at least (0.15 n + 0.05)/(1 - page_margin_factor_bottom) points are left, the paragraphs end above the bottom margin. Refuted without that room: text reaching the end of the page can overflow by rounding. Word's own layout (fonts higher than the exact row height are clipped, not moved) is outside the model.",
"C124": "Proved for the layout step (C124_two_columns_partial: pageStage, lattice, stream, assignment, parsing of cells) and from the extracted page to the document (C124_document_partial, C124_styled_partial with styled text, C124_formatted_partial with styled text and formats, C124_converts_partial: no errors). Missing: drawings other than links, headings between the columns. Refuted in general by C124_refuted_narrow_reach (a block that reaches at most a twentieth of its width into one column: its lines there are shown in both).",
"C125": "C125_turned_partial (Spec/Turned, Props/Turned): the formatted layout (Pose.layout) of any text blocks whose lines run upwards, in any box, and of the turned ones either both raise the same error or agree in alignment, start of the first row, right indent, tab stops, space before/after, line spacing, lines and line breaks of every paragraph. Missing because false of the code: the first line indent has the opposite sign (Refuted: C52_refuted_vertical; here proved to be exactly the negative) and tabs are never written for vertical text (C54_refuted_vertical). Layouts with tables are not covered; the blocks are those after parsing (parsing itself is not symmetric).",
"C126": "C126_line_breaks_partial (Spec/LineBreaks, Props/LineBreaks): for the converted document (Pose.convert) and every page of text in one column, one line in each row (TextPage, as C121 and C122). Missing: several lines in a row, tables, vertical text.",
"C127": "Proved end to end on Pose.convert for pages with one drawn grid and one column of text around it (the class of C108), cells at least 5pt wide and high. Missing: a table less than 0.7pt below the top of the working area (C53_refuted_gaps_and_overlaps), several tables, pictures.",
"C128": "Proved end to end on Pose.convert for the pages of C127 (not asking where the table is). Same exceptions as C122 (justified paragraphs with a first line indent, off-centre centred ones, ...).",
"C129": "Proved end to end on Pose.convert for the pages of C127, if the lines in the cells do not reach over the side borders. Positions are relative to the area inside the cell's borders as the code finds them; a first column without left border (C92_refuted_left_border) is measured from the grid line. The paragraphs of a cell are those of its tree (no blank paragraphs).",
"C13": "Proved for every permutation of workers.",
"C130": "C130_any_table is for all pages: tables are written where they were found, with the widths, borders and backgrounds found. C130_table_columns_partial (found as drawn): pages as in C127 (one drawn grid, nothing merged, horizontal text in one column around it); the left borders of the first column may be missing (C92_refuted_left_border); colours of borders and row heights are left out here.",
"C131": "Partial: pages as in C127; areas without text on them are not claimed to be kept (false: C115_refuted_no_text).",
"C132": "Relative to the layout found by the parser (C92, C108, C113 and C119 say what that is); colours of borders and row heights are left out; that a word processor starts a table at the indent, and the contents of a cell at its left border, is assumed.",
"C133": "Colours of borders are left out. Where the lines and areas are relative to the cell is in C104, for the layout.",
"C134": "That a spacing is written as such by python-docx is assumed; distances are rounded to a tenth of a point, as in the code.",
"C14": "Proved.",
"C15": "Proved at any depth of nesting for pages without floating images, with no rotation in effect; refuted for floating images (never drawn after restore; stale ones kept), stream tables (become lattice), rotated pages (rotated twice when the last parsed page was rotated), fonts with commas, line boxes larger than their spans. Shapes and the JSON text are not modelled.",
"C16": "Integer index exact; slices false for negative stops (negative stop treated like range, not like a list slice). Partial: non-negative bounds.",
"C17": "User keys override defaults; `debug` leaks: refuted.",
"C18": "Proved for every 24-bit integer.",
"C19": "Proved.",
"C20": "Proved over rationals.",
"C21": "Proved for every list of elements and every symmetric relation given as reported pairs.",
"C22": "Proved.",
"C23": "False when left sides coincide with sides of earlier rectangles (aligned rectangles): refuted; proved if no earlier rectangle has a side at the left side of the right one.",
"C24": "False for degenerate (zero-area) boxes, which fitz unions ignore: refuted; proved for boxes with area.",
"C25": "Alignment symmetric when both elements have the same text direction; refuted for mixed directions; remaining geometry laws proved.",
"C26": "Proved.",
"C27": "Proved: permutation, sorted by the key, stable, idempotent.",
"C28": "Proved for every span, shape and sequence of shapes.",
"C29": "Proved when covered characters are consecutive; refuted for non-consecutive covered characters and for types carried over between spans.",
"C30": "Visible text kept for all lines; single-side strip exact; refuted: both sides at once (right side skipped when the left was stripped).",
"C31": "Proved for every non-empty list of pages.",
"C32": "Proved for pages and whole documents, and for all cells at every depth.",
"C33": "Text and tables once and in order: proved at every depth. Floating images once: proved. Floating images on their own page: refuted for a page with floating images only (anchored on the previous page), partial otherwise.",
"C34": "Margin range proved; working area contains content: proved for boxes with area (exact up to bottom factor 1/2, else 0.05pt); refuted for hairlines without area and for rounding with bottom factor 1.",
"C35": "Proved, with uniqueness of the decomposition.",
"C36": "Proved.",
"C37": "Cover, colour and hyperlink parts proved; refuted: a large fill can be merged into a line and become a stroke.",
"C38": "Proved: all rows of a parsed table have the same number of entries. Refuted: one row per grid row (rows whose cells are all merged away are dropped).",
"C39": "Proved for the grid structure (every border pattern). For the resulting table block refuted (dropped rows) and proved when a cell of positive size starts in every row.",
"C40": "Refuted for arbitrary patterns (box in the corner of a box). Proved: for every division of the grid into rectangles whose borders are drawn, detection recovers exactly the division, from strokes to table rows with boxes.",
"C41": "Refuted in general (group overwritten when the running average hits another key). Proved for clustered positions (any order) and for ascending positions (any distances).",
"C42": "Proved for every sequence of finalize-by-value, by-stroke, by-strokes and by-layout calls.",
"C43": "True for tables that do not overlap (C43_disjoint_partial, for every block and any number of tables) and never raises if no line has zero area. Refuted in general: overlapping tables duplicate lines, and a zero-area line in a block that straddles a table border raises ZeroDivisionError.",
"C44": "Exact content of each cell (C44_cell_content_partial), and exactly-once when cells do not overlap and each character/image lies inside a cell (C44_exactly_once_partial). Refuted in general: a character half in two cells is in both; one at the corner of four cells is lost; an image (less than 75% in each cell) or nested table over a border is lost; a block 95% in a cell is put there whole while the rest also goes to the neighbour.",
"C45": "Non-negative space before and sum proved; refuted: one row with lines of different height, and negative line spacing when the block ends above the end of the previous block.",
"C46": "Proved for all inputs.",
"C47": "Exact outcome of every block and recovered image proved (C47_result). Refuted: of two pictures at the same place one is lost. Kept otherwise (C47_image_kept_partial). PyMuPDF is outside the model.",
"C48": "Partition proved; selected elements do intersect when the threshold is positive; refuted for the default threshold and zero.",
"C49": "Visible characters kept in order; refuted: blanks between spans are lost (words glued).",
"C50": "Proved, including the exact set of sizes that raise.",
"C51": "Proved.",
"C52": "Proved for none or hanging indent of horizontal text; refuted for ordinary first line indent and for vertical text.",
"C53": "Proved for stacked blocks (text may overlap); refuted for tables below small gaps and overlapping tables; blank paragraphs between tables at least 1pt: proved.",
"C54": "Single step proved when the tracked cursor position is right; refuted for three columns (cursor position wrong) and for vertical text (no tabs at all).",
"C55": "Kept if the path is iso-oriented (characterised for single lines and rectangles of lines >= 0.2pt); refuted: open corner drawn as one path, hairline polygon.",
"C56": "Proved for blocks in top-to-bottom order; refuted for vertical text.",
"C57": "Proved.",
"C58": "Refuted (axis with ticks raises IndexError), also on the level of the whole page (C58_refuted_page: the page has text and an axis with ticks; parsing the page raises). Proved when the horizontal strokes reach over more than twice the border width.",
"C59": "Proved for all four sides, tolerance 1 pt (MINOR_DIST) beyond the stroke boxes.",
"C60": "Exact characterisation for strokes sorted by start; refuted: coverage (overlapping strokes are counted twice) and equal width (only colours are compared).",
"C61": "Exact for strokes sorted by start; refuted for other orders (inner lines of lattice tables are not sorted).",
"C62": "Proved up to the rounding of the ratio to 0.01.",
"C63": "Proved: existing borders are kept, an auxiliary border gives a stroke only if its position was decided, within its range. Refuted: not added where a border exists (dictionary keyed by the bound method, call parentheses missing).",
"C64": "Refuted: a border can stay open (its drawn position is then the middle of its range, C42). Proved: ranges with a common interval are all placed on one line.",
"C65": "Proved for a fresh converter with a non-empty selection without repetitions; on any converter the result consists of the tables of the pages make_docx would write. Refuted: a converter used before also returns the tables of pages parsed earlier; a selection without existing page returns all tables.",
"C66": "Stability is refuted for names with a comma (C15_refuted_font); the table entry DFKAISB can never apply to DFKai-SB. Upper case of non-ASCII letters is not modelled.",
"C67": "Permutation for all lines; row order for horizontal text. Refuted for vertical text: lines of a row are sorted by increasing bottom edge, i.e. in reverse reading order.",
"C68": "Rows, adjacency and content proved. Refuted: after a gap the next two adjacent lines are not merged; of overlapping lines the second is dropped with its text, and the following line is joined across the gap.",
"C69": "Full, for every set iteration order. Identity of the parent is modelled as a number; CPython may reuse an id after collection (not modelled).",
"C70": "Separation for all blocks whose lines and spans lie inside them; content when no lines overlap by the threshold (as in the statement).",
"C71": "Conservation for image blocks with one line (as made by Blocks.restore/from images); soundness for boxes larger than the gap.",
"C72": "Proved: order, no overlap and containment (C72_parts_in_order_partial). False for the cover: a shape over less than half of the first (or last) character leaves the text unstyled but cuts the box of the span (C72_refuted_box_cut).",
"C73": "Full statement about the text of parsed tables; a cell is merged away when its box is empty, as in the code.",
"C74": "Contours as boxes with area and coordinates rounded to 0.1 (OpenCV gives integers); clipping itself is outside.",
"C75": "Full statement.",
"C76": "Full.",
"C77": "Refuted in two ways: lines of a column overlapping by less than a tenth of their height get a border through both; a stroke in one column makes auxiliary borders of other columns real, through their text. Proved for horizontal text with clear rows, for all borders but the auxiliary ones; for all of them without strokes and shadings.",
"C78": "Proved for horizontal text with clear rows; C78_refuted_overlapping: lines overlapping by less than a tenth of their height are not parted.",
"C79": "Refuted for shadings: at most one shading is left behind per block, so a block in a later shading can be missed. The rest is full; block alignment is characterised by C25.",
"C80": "Proved for pages with content on both sides (with the exact converse C80_otherwise). Refuted: a blank page and a page with only a centred title get a stray table at the top edge (the box of no elements is (0,0,0,0)); a page with one short line gets two columns, one empty.",
"C81": "Proved for blocks within one half of the page and for spanning content at least 5pt away from the columns. Refuted: the table reaches 5pt beyond the columns, so a rule or small print across the page within 5pt is put into (cut between) both cells.",
"C82": "Proved when any two groups are nested or apart (C82_kept_apart needs no condition). Refuted: a small group inside the overlap of two larger ones makes the smaller of these vanish (one instance per connected component is kept).",
"C83": "Table detection is an arbitrary function (oracle) in the C83 theorems of Layout.lean; in C83_shapes_* the detection itself is modelled (Full.lean) with the shapes of the page and of each cell. Distribution, cutting at cells, splitting back and the recursion are modelled in both.",
"C84": "Proved whenever at every reached stage the tables found fit (tables and cells do not overlap, each character of the text given to a table lies in one of its cells, inner tables belong to one cell). Refuted in general: a character over a corner is lost, one over a border is duplicated.",
"C85": "C85_everything_once_partial: every visible character and picture exactly once, under the stated conditions on overlaps and on the tables found (parameter). Refuted without them: C85_refuted_lost (overlapping lines), C85_refuted_twice (with the concrete detection of tables on a page without vector graphics, the page number of a table-of-contents entry appears twice). C85_no_exception is about cleaning up and parsing; writing the docx may still raise for tables whose cells do not tile the grid (C89_refuted_raises).",
"C86": "C86_lines_whole and C86_reading_order are about the composed pipeline of Pipe.lean. C86_interleaved_blocks shows that the condition on blocks is needed: the text of a block lying between two lines of another block comes after both.",
"C87": "Hypothesis: the cells tile the grid (see C40 for when they do).",
"C88": "Refuted for all merged cells and for widths off the grid of eighths; proved for single cells; exact number of margin elements proved.",
"C89": "Tiling tables proved, also that the rendering used by C32/C33/C85 agrees; two refutations from drawn strokes to the docx table.",
"C90": "Proved for text of which one line lies beside the centre of the page and one line across it is neither above nor below all lines beside it (C90_plain_text_partial), with the concrete detection of tables (Detect.lean), not a parameter. False otherwise: a page of full-width lines gets an empty table above the text (C90_refuted_full_lines), a page of short lines becomes a two-column table (C90_refuted_short_lines).",
"C91": "Proved for one table's strokes in any pieces whose order is by position (C91_cells, C91_segments, C91_exact), for whole pages of tables whose strokes hang together (C91_page: any set order, one stroke per inner line; C91_pieces), and for a full grid of any size among other lines in any order (C91_grid). False in general: a second grid below the first loses a column because of coordinates it shares with other strokes (C91_refuted_column_lost); a thicker piece of a line is read first and makes cells merge (C91_refuted_thick_piece).",
"C92": "Proved for one full r x k grid anywhere across the centre of the page, in the closed model of the layout (Full.lean: nothing about detection is a parameter), with other lines apart from it, in any order, and text in one column outside it and in whole lines inside it; a block may have lines in several cells, side by side and joined by the clean-up from several source blocks in any order (C92_grid_partial); with cells of at least 5pt all borders have the drawn width, except that the left borders of the first column may be missing (C92_borders_partial). False in general: on a page of two columns with a rule the table of the left column appears twice, once empty (C92_refuted_copy); a line in a narrow column whose block is 95% in the wide column is shown in both cells (C92_refuted_narrow_column). A line elsewhere on the page can remove the left border (C92_refuted_left_border); rows lower than 5pt lose their vertical borders (C92_refuted_low_rows). Filled areas may be white or lie behind cells (CellPaint), see C115. Missing: merged cells, several tables, other filled areas.",
"C93": "Bold, italic, font, colour, size (C93_font), underline, strike and background (C93_decoration) proved for every span. False for superscript: `docx_run.superscript` is not a property of a python-docx run, so superscript text comes out as normal text (C93_refuted_superscript: for every span). Two lines of different colours under one text give two underline elements (C93_refuted_two_underlines). The semantics of python-docx setters is assumed (Run.lean).",
"C94": "Proved for whole pages (any number of blocks, lines, spans, shapes in any order) when the shapes do not disturb each other (Undisturbed: where a link lies left of an earlier shape, that shape cuts the span cleanly) and the lines of a block begin from top to bottom. Refuted otherwise: an underlined link looked at before a link left of it makes that one lose its target; a tall line right of a small one in the same row is never reached.",
"C95": "Distribution proved for all layouts. Refuted: a link area or highlight sticking out of the table by 0.1pt stays with the page although its text goes to the cell, so the link is lost.",
"C96": "Closed layout model with shapes (Full.lean). 'Covers for the greater part' is more than 70% of the area (the code tests a rounded share of 75%). The page is not in two columns when something across its centre stands beside something that is not; pages where nothing does are laid out in two columns even if they have one (C80_refuted_*). Blocks may have been joined from several source blocks.",
"C97": "C97_shaded_partial proves the whole statement for pages with one coloured area whose text lines are stacked (no two lines on it side by side), no loose lines on the page, and something that keeps the page from being laid out in two columns (C80). Missing: several areas, lines of text side by side on the area. Refuted: with a white page background drawn first, the cell becomes white (C97_refuted_white_page); a black area is not recognised and is lost, so white text on it disappears (C97_refuted_black). Blocks may have been joined by the clean-up, with lines in any order.",
"C98": "Proved for areas at least 2pt from the top and left edge. Refuted for areas starting closer (e.g. a picture filling the page): the numpy slice starts at a negative index and is empty, so nothing is excluded. OpenCV is outside the model.",
"C99": "Proved for every history when no text contains BT, Tm or Td, and for pages read once that share no content stream. Refuted otherwise: `_hide_page_text` replaces these letters also inside texts (OBTAIN becomes OBT 3 TrAIN), which the next read of the stream sees. That PyMuPDF extracts invisible text is assumed."
}