{"id": "C01", "title": "`pages` selects exactly the existing requested pages", "statement": "convert(pages=L) / extract_tables(pages=L) process exactly those entries of L that are indexes of existing pages (0 <= i < page count), in the order given and with repetitions kept; negative or too large entries are dropped and no entry outside the document is ever attempted.", "quantifier": "every page list (any length, order, repetition, sign) and every page count", "why_tests_cant": "lists and documents are unbounded; tests only try a few lists on one sample PDF", "anchors": ["pdf2docx/converter.py:Converter._page_indexes", "pdf2docx/converter.py:Converter.convert"]}
{"id": "C02", "title": "`start`/`end` select the half-open page range", "statement": "Without `pages`, convert(start=s, end=e) processes exactly the pages i with s <= i < e that exist, in increasing order (negative s, e count from the end as in a Python slice; an omitted end means the whole rest of the document).", "quantifier": "every start, every end (including 0, negative and beyond the last page), every page count", "why_tests_cant": "the interesting points are boundary values (end=0, start>=end, beyond the end); all integers must be covered", "anchors": ["pdf2docx/converter.py:Converter._page_indexes", "pdf2docx/converter.py:Converter.parse"]}
{"id": "C03", "title": "A conversion creates only the selected pages", "statement": "On a fresh Converter, the pages created in the docx by convert(...) are exactly the selected pages whose parsing succeeded: nothing that was not selected is parsed or created (in particular an empty selection creates nothing).", "quantifier": "every selection, every document, every outcome (success/failure) of every page", "why_tests_cant": "needs every combination of selection and per-page outcome; an empty selection is an easily missed corner", "anchors": ["pdf2docx/converter.py:Converter.parse", "pdf2docx/converter.py:Converter.convert", "pdf2docx/converter.py:Converter.make_docx"]}
{"id": "C04", "title": "A page that fails to parse does not affect other pages", "statement": "If parsing some page raises, parse() still returns normally, every other selected page is still parsed, and its result is the same as if the failing page had not been selected.", "quantifier": "every subset of failing pages, every order of processing, every configuration", "why_tests_cant": "there are 2^n failure patterns", "anchors": ["pdf2docx/converter.py:Converter.parse", "pdf2docx/page/Page.py:Page.parse"]}
{"id": "C05", "title": "Pages appear in the docx in document order, each at most once", "statement": "Whatever the order and the repetitions in `pages`, and whatever sequence of parse calls came before, make_docx creates the parsed pages in increasing page order and each at most once; a page whose creation raises is skipped without affecting which other pages are created.", "quantifier": "every history of parse calls, every per-page creation outcome", "why_tests_cant": "histories and orders are unbounded", "anchors": ["pdf2docx/converter.py:Converter.make_docx"]}
{"id": "C06", "title": "The set of converted pages after any history of calls", "statement": "After any sequence of parse/restore calls on one Converter, a page takes part in make_docx, store and extract_tables iff some call processed it successfully and no later processing of that page failed while re-reading its source; pages never mentioned keep their state.", "quantifier": "every finite history of parse / restore calls with arbitrary per-page outcomes", "why_tests_cant": "histories are unbounded", "anchors": ["pdf2docx/converter.py:Converter.parse", "pdf2docx/converter.py:Converter.restore", "pdf2docx/page/Page.py:Page.finalized"]}
{"id": "C07", "title": "make_docx without parsed pages fails without side effects", "statement": "If no page is parsed, make_docx raises and no file is removed or written; otherwise it does not raise because of page content.", "quantifier": "every converter state, every file system content, every file name", "why_tests_cant": "all file-system states must be covered", "anchors": ["pdf2docx/converter.py:Converter.make_docx"]}
{"id": "C08", "title": "A crash or failed save never destroys an existing output file", "statement": "At every crash point during make_docx(f), and when saving fails, the file f that existed before either still holds its old content or holds the complete new document.", "quantifier": "every crash point, every prior file-system content", "why_tests_cant": "crash points cannot be exercised by unit tests", "anchors": ["pdf2docx/converter.py:Converter.make_docx"]}
{"id": "C09", "title": "The default output name never destroys the source PDF", "statement": "When no docx name is given, the output name differs from the source PDF's name, so that converting never removes or overwrites the PDF.", "quantifier": "every file name string", "why_tests_cant": "all strings must be covered (upper-case extension, no extension, '.pdf' inside the name)", "anchors": ["pdf2docx/converter.py:Converter.make_docx"]}
{"id": "C10", "title": "One-based command line indexes mean the same pages shifted by one", "statement": "With zero_based_index=False, a command with start, end, pages selects exactly the pages that the zero-based command with start-1, end-1, and every page number minus one selects; in particular --start=1 --end=e selects the first e-1 pages (documented behaviour).", "quantifier": "every start, end, page list, page count", "why_tests_cant": "boundary values over all integers (end=1)", "anchors": ["pdf2docx/main.py:PDF2DOCX.convert", "pdf2docx/main.py:PDF2DOCX.table"]}
{"id": "C11", "title": "Multi-processing converts the same pages as sequential conversion", "statement": "For the same arguments, convert with multi_processing=True creates the same set of pages as without it, for every number of CPUs.", "quantifier": "every selection, CPU count, page count, per-page outcome", "why_tests_cant": "the failing combinations of page count and CPU count are sparse; page gaps are not sampled", "anchors": ["pdf2docx/converter.py:Converter._parse_and_create_pages_with_multi_processing", "pdf2docx/converter.py:Converter._parse_pages_per_cpu"]}
{"id": "C12", "title": "Worker segments partition the page range", "statement": "For every page range and CPU count the page lists computed by the workers are pairwise disjoint, ordered, contained in the range, and together cover each page of the range exactly once; none exceeds floor(n/cpu)+1 pages.", "quantifier": "every range first..last and every cpu >= 1", "why_tests_cant": "arithmetic over two unbounded integers", "anchors": ["pdf2docx/converter.py:Converter._parse_pages_per_cpu"]}
{"id": "C13", "title": "Worker completion order does not matter", "statement": "The pages restored in the parent after the workers finish do not depend on the order in which the workers run or write their result files; missing result files are skipped.", "quantifier": "every interleaving (permutation) of worker completions, every worker result", "why_tests_cant": "schedules cannot be enumerated by tests", "anchors": ["pdf2docx/converter.py:Converter._parse_and_create_pages_with_multi_processing"]}
{"id": "C14", "title": "store/restore round trip at document level", "statement": "Restoring the data stored by one Converter into another Converter on the same PDF makes exactly the stored (parsed) pages available, with the stored content, leaves the other pages untouched, and storing again yields the same data.", "quantifier": "every subset of parsed pages and every page content", "why_tests_cant": "subsets and contents unbounded", "anchors": ["pdf2docx/converter.py:Converter.store", "pdf2docx/converter.py:Converter.restore", "pdf2docx/page/Page.py:Page.store", "pdf2docx/page/Page.py:Page.restore"]}
{"id": "C15", "title": "store/restore round trip of the parsed layout of a page", "statement": "Serialising a parsed page and restoring it keeps every block (text, table, inline and floating images) with its kind, text, cells, rows and order, so the docx made from a restored page is the one made from the original.", "quantifier": "every layout tree (unbounded nesting of tables in cells)", "why_tests_cant": "recursive structures of unbounded depth", "anchors": ["pdf2docx/page/Blocks.py:Blocks.restore", "pdf2docx/common/Block.py:Block.store", "pdf2docx/table/TableBlock.py:TableBlock.restore", "pdf2docx/table/Cell.py:Cell.store"]}
{"id": "C16", "title": "Converter indexing behaves like a list of pages", "statement": "cv[i] and cv[a:b:c] return what the same index or slice of the list of all pages returns (IndexError when out of range).", "quantifier": "every integer index, every slice with optional start/stop/step, every page count", "why_tests_cant": "all sign combinations of three integers", "anchors": ["pdf2docx/converter.py:Converter.__getitem__"]}
{"id": "C17", "title": "Configuration: user settings override defaults, nothing leaks between calls", "statement": "The settings used for a page are the documented defaults overridden by the user's dictionary; keys given by the user win, keys not given have the documented default, and the settings of one call never influence another call.", "quantifier": "every user dictionary, every history of calls", "why_tests_cant": "dictionaries and histories unbounded", "anchors": ["pdf2docx/page/Page.py:Page.init_settings", "pdf2docx/page/Page.py:Page.parse"]}
{"id": "C18", "title": "Colour decoding is exact", "statement": "The integer colour of a PDF text span 0xRRGGBB is decoded to exactly its three 8-bit components, each in 0..255.", "quantifier": "every colour value 0 <= c < 2^24", "why_tests_cant": "16.7M values; stated arithmetically for all", "anchors": ["pdf2docx/common/share.py:rgb_component", "pdf2docx/text/TextSpan.py:TextSpan.make_docx"]}
{"id": "C19", "title": "Colour encode/decode round trip", "statement": "Encoding RGB components to the stored integer and decoding it again returns the same components, encoding is injective and always fits in 24 bits.", "quantifier": "all component triples in [0,1] (multiples of 1/255 for the exact round trip)", "why_tests_cant": "continuous domain", "anchors": ["pdf2docx/common/share.py:rgb_to_value", "pdf2docx/common/share.py:rgb_component_from_name"]}
{"id": "C20", "title": "Colour-space conversion stays in range", "statement": "The colour integer computed for a shape is in 0..0xFFFFFF for every gray, RGB or CMYK component tuple in [0,1]; gray g equals RGB (g,g,g); CMYK without black ink is the complement RGB; unsupported tuples give black.", "quantifier": "every component tuple of any length with components in [0,1]", "why_tests_cant": "continuous domain", "anchors": ["pdf2docx/common/share.py:rgb_value", "pdf2docx/common/share.py:cmyk_to_rgb"]}
{"id": "C21", "title": "Grouping by connectivity is a partition into connected components", "statement": "The groups computed from a symmetric relation contain every element exactly once; two elements are in the same group iff they are linked by a chain of related elements. The result (as sets) does not depend on iteration order.", "quantifier": "every finite undirected graph, every set iteration order", "why_tests_cant": "graphs of unbounded size", "anchors": ["pdf2docx/common/share.py:graph_bfs", "pdf2docx/common/Collection.py:Collection.group"]}
{"id": "C22", "title": "Rectangles reported as intersecting do overlap", "statement": "Every pair of shapes that the plane-sweep reports as connected overlaps in both directions, for any set of rectangles; so a group never contains an isolated, non-touching shape.", "quantifier": "every finite list of rectangles, including ties and degenerate ones", "why_tests_cant": "unbounded lists and a recursive divide-and-conquer", "anchors": ["pdf2docx/common/share.py:solve_rects_intersection", "pdf2docx/common/Collection.py:Collection.group_by_connectivity"]}
{"id": "C23", "title": "All overlapping rectangles are reported", "statement": "Every pair of rectangles that properly overlap is reported by the plane sweep, so shapes that overlap always end up in the same group.", "quantifier": "every finite list of rectangles, including equal edges", "why_tests_cant": "the failing configurations are ties deep in the recursion", "anchors": ["pdf2docx/common/share.py:solve_rects_intersection", "pdf2docx/common/share.py:_stab"]}
{"id": "C24", "title": "A container's box contains all of its contents", "statement": "After any sequence of additions, the bounding box of a line, text block, collection contains the box of each element added (up to the documented rounding to 0.1) and is the smallest such box.", "quantifier": "every sequence of append/extend/insert operations", "why_tests_cant": "sequences unbounded", "anchors": ["pdf2docx/common/Collection.py:Collection.append", "pdf2docx/common/Collection.py:BaseCollection.bbox", "pdf2docx/common/Element.py:Element.union_bbox"]}
{"id": "C25", "title": "Geometry predicates are consistent", "statement": "Alignment and same-row tests between two elements are symmetric, every non-empty element is aligned with itself, union is commutative, associative and idempotent and contains both operands, and containment is transitive.", "quantifier": "every pair/triple of rectangles with rational coordinates", "why_tests_cant": "continuous domain", "anchors": ["pdf2docx/common/Element.py:Element.horizontally_align_with", "pdf2docx/common/Element.py:Element.vertically_align_with", "pdf2docx/common/Element.py:Element.in_same_row", "pdf2docx/common/Element.py:Element.contains", "pdf2docx/common/Element.py:Element.get_main_bbox"]}
{"id": "C26", "title": "Stored coordinates are within 0.05pt and rounding is stable", "statement": "The coordinates kept for an element differ by at most 0.05 from the given ones, storing and re-reading them does not change them any further, and ordering of edges is preserved.", "quantifier": "every rational coordinate, any number of store/restore cycles", "why_tests_cant": "continuous domain", "anchors": ["pdf2docx/common/Element.py:Element.update_bbox", "pdf2docx/common/Element.py:Element.store"]}
{"id": "C27", "title": "Sorting only reorders", "statement": "Sorting blocks, shapes, lines in reading order / line order returns a permutation of the elements (none lost or duplicated) that satisfies the documented order, and sorting twice changes nothing.", "quantifier": "every list of elements", "why_tests_cant": "lists unbounded", "anchors": ["pdf2docx/common/Collection.py:Collection.sort_in_reading_order", "pdf2docx/common/Collection.py:Collection.sort_in_line_order", "pdf2docx/text/Lines.py:Lines.sort"]}
{"id": "C28", "title": "Splitting a span by shapes conserves the text", "statement": "Applying any sequence of highlight/underline/strike/hyperlink shapes to a text span leaves the concatenated characters of the resulting spans equal to the original characters, in order.", "quantifier": "every span, every sequence of shapes, every containment pattern", "why_tests_cant": "shape sequences and geometric patterns unbounded", "anchors": ["pdf2docx/text/TextSpan.py:TextSpan.split", "pdf2docx/text/Lines.py:Lines.parse_text_format", "pdf2docx/text/TextBlock.py:TextBlock.parse_text_format"]}
{"id": "C29", "title": "A shape styles exactly the characters it covers", "statement": "When a shape overlaps a span, exactly the characters it covers receive its style; others keep their style.", "quantifier": "every span and every containment pattern of characters", "why_tests_cant": "2^n containment patterns", "anchors": ["pdf2docx/text/TextSpan.py:TextSpan.split"]}
{"id": "C30", "title": "Blank stripping keeps the visible text", "statement": "Stripping a line's redundant blanks never changes its non-blank text, leaves at most one blank on each stripped side, and is idempotent.", "quantifier": "every sequence of spans and characters", "why_tests_cant": "strings unbounded", "anchors": ["pdf2docx/text/TextSpan.py:TextSpan.lstrip", "pdf2docx/text/TextSpan.py:TextSpan.rstrip", "pdf2docx/text/Spans.py:Spans.strip", "pdf2docx/text/Line.py:Line.strip"]}
{"id": "C31", "title": "Each selected page becomes exactly one section, first page reuses the default one", "statement": "Creating n pages in a docx yields exactly n sections, whatever the content of the pages.", "quantifier": "every list of pages with arbitrary content", "why_tests_cant": "unbounded", "anchors": ["pdf2docx/page/Page.py:Page.make_docx", "pdf2docx/page/Blocks.py:Blocks.make_docx"]}
{"id": "C32", "title": "Tables in the docx are always separated and never end a page", "statement": "In the produced body two tables are never adjacent, and the last body element of a page is a paragraph, so Word never merges two tables nor moves content.", "quantifier": "every sequence of text/table blocks", "why_tests_cant": "sequences unbounded", "anchors": ["pdf2docx/page/Blocks.py:Blocks.make_docx"]}
{"id": "C33", "title": "All text and table blocks are emitted once and in order", "statement": "make_docx emits every text block as one paragraph and every table block as one table, in block order, adding only empty paragraphs.", "quantifier": "every sequence of blocks", "why_tests_cant": "sequences unbounded", "anchors": ["pdf2docx/page/Blocks.py:Blocks.make_docx"]}
{"id": "C34", "title": "Page margins are sane and the working area contains the content", "statement": "Margins computed from the content lie in [0,72]pt and the resulting working area contains all page content that lies within the page.", "quantifier": "every page size and content box", "why_tests_cant": "continuous domain", "anchors": ["pdf2docx/page/Page.py:Page._cal_margin", "pdf2docx/page/Page.py:Page.working_bbox"]}
{"id": "C35", "title": "Path segmentation conserves the drawing", "statement": "Grouping raw drawing segments keeps every item exactly once in drawing order; consecutive segments are in the same group iff they connect; a rectangle stands alone.", "quantifier": "every list of path items", "why_tests_cant": "lists unbounded", "anchors": ["pdf2docx/shape/Path.py:Segments", "pdf2docx/shape/Path.py:Path._group_segments"]}
{"id": "C36", "title": "Rectangles become four border strokes", "statement": "A stroked rectangle path is converted to exactly four strokes whose centre lines are its outline, horizontal or vertical, all of one width (twice the path width) and the path's colour.", "quantifier": "all rectangles, widths and colours", "why_tests_cant": "all rectangles incl. degenerate ones", "anchors": ["pdf2docx/shape/Path.py:R.to_strokes", "pdf2docx/shape/Path.py:Segments", "pdf2docx/shape/Shape.py:Stroke.__init__"]}
{"id": "C37", "title": "Merging shapes loses no painted area", "statement": "Cleaning up shapes merges only same-coloured shapes, and each eligible original shape is covered by an output shape of the same colour; hyperlinks are kept one by one; a filled area wider than the maximum border width stays a filled area.", "quantifier": "all lists of shapes, all thresholds", "why_tests_cant": "the merge is order dependent and repeated; any number of shapes and overlaps", "anchors": ["pdf2docx/shape/Shapes.py:Shapes.clean_up", "pdf2docx/shape/Shape.py:Fill.to_stroke", "pdf2docx/shape/Shape.py:Stroke.update_bbox", "pdf2docx/common/Element.py:get_main_bbox"]}
{"id": "C38", "title": "Extracted tables are rectangular", "statement": "Every table returned by extract_tables has one entry per row and column of the grid, the merged-away positions being None.", "quantifier": "every table", "why_tests_cant": "unbounded", "anchors": ["pdf2docx/table/TableBlock.py:TableBlock.text", "pdf2docx/converter.py:Converter.extract_tables"]}
{"id": "C39", "title": "Merged-cell detection stays within the grid", "statement": "For every pattern of borders, computed row and column spans are at least 1 for visible cells and never extend beyond the table.", "quantifier": "every grid size and every border pattern", "why_tests_cant": "2^(n*m) patterns", "anchors": ["pdf2docx/table/TableStructure.py:TableStructure._check_merged_cells", "pdf2docx/table/TableStructure.py:TableStructure._count_merged_cells"]}
{"id": "C40", "title": "Merged regions do not overlap and tile the table", "statement": "Cells (with their spans) of a parsed table cover every grid position exactly once.", "quantifier": "every grid size and every border pattern", "why_tests_cant": "2^(n*m) patterns", "anchors": ["pdf2docx/table/TableStructure.py:TableStructure.parse"]}
{"id": "C41", "title": "No border stroke is lost when grouping strokes into rows/columns", "statement": "Grouping strokes by position keeps each of them in exactly one group.", "quantifier": "every list of strokes", "why_tests_cant": "unbounded, collisions are sparse", "anchors": ["pdf2docx/table/TableStructure.py:TableStructure._group_h_v_strokes"]}
{"id": "C42", "title": "Stream-table borders are placed once and inside their range", "statement": "Once a border's position is decided it never changes, and the decided position lies within the allowed range (1pt tolerance), for any sequence of alignment attempts.", "quantifier": "every sequence of finalize calls with arbitrary strokes", "why_tests_cant": "histories unbounded", "anchors": ["pdf2docx/table/Border.py:Border.finalize_by_value", "pdf2docx/table/Border.py:HBorder.finalize_by_stroke", "pdf2docx/table/Border.py:VBorder.finalize_by_stroke"]}
{"id": "C43", "title": "Assigning text lines to tables conserves the lines", "statement": "When page text is distributed to tables, each line ends up in exactly one table or stays on the page.", "quantifier": "every list of blocks and tables", "why_tests_cant": "geometric patterns unbounded", "anchors": ["pdf2docx/page/Blocks.py:Blocks._assign_block_to_tables"]}
{"id": "C44", "title": "Assigning content to cells conserves it", "statement": "Each character, image and nested table of a block assigned to a table ends up in exactly one of its cells.", "quantifier": "every cell layout and block", "why_tests_cant": "continuous domain", "anchors": ["pdf2docx/table/Cell.py:Cell._assign_block", "pdf2docx/text/Line.py:Line.intersects", "pdf2docx/text/TextSpan.py:TextSpan.intersects", "pdf2docx/image/ImageSpan.py:ImageSpan.intersects"]}
{"id": "C45", "title": "Paragraph spacing is non-negative and reproduces the vertical extent", "statement": "The paragraph spacing and line spacing computed for a text block are non-negative and add up to the block's extent.", "quantifier": "every block", "why_tests_cant": "continuous domain", "anchors": ["pdf2docx/text/TextBlock.py:TextBlock.parse_line_spacing"]}
{"id": "C46", "title": "Every text block gets a definite alignment and consistent indents", "statement": "After parsing, alignment is one of left/right/center/justify and never unknown; indents are non-negative and inside the available width.", "quantifier": "every block geometry and thresholds", "why_tests_cant": "continuous domain and many branches", "anchors": ["pdf2docx/text/TextBlock.py:TextBlock.parse_horizontal_spacing"]}
{"id": "C47", "title": "Images extracted from a page are not lost", "statement": "Preparing the images of a page leaves text blocks alone, keeps every recovered image (alone, or at each place where the page draws the same picture), and gives a picture block the content of a recovered image at the same place.", "quantifier": "all lists of raw page blocks and recovered images", "why_tests_cant": "Any number of images sharing contents or positions, in any order.", "anchors": ["pdf2docx/page/RawPage.py:RawPage._preprocess_images", "pdf2docx/image/ImagesExtractor.py:ImagesExtractor.extract_images"]}
{"id": "C48", "title": "Selecting the elements that intersect a region is a partition", "statement": "Splitting a collection by a region puts each element in exactly one of the two groups, keeping the order; the elements of the first group do intersect the region; it fails only for elements without area.", "quantifier": "all collections, regions and thresholds", "why_tests_cant": "must hold for every arrangement of boxes, including degenerate ones and the default threshold", "anchors": ["pdf2docx/common/Collection.py:Collection.split_with_intersection", "pdf2docx/table/TablesConstructor.py:stream_tables", "pdf2docx/page/Blocks.py:_assign_block_to_tables"]}
{"id": "C49", "title": "extract_tables returns the visible text", "statement": "The text of each line in a cell returned by extract_tables consists of all visible characters of the line in order, and words are separated as in the document.", "quantifier": "every line of spans and every notion of blank", "why_tests_cant": "ranges over all span segmentations and blank positions", "anchors": ["pdf2docx/text/Line.py:Line.text", "pdf2docx/text/TextSpan.py:TextSpan.text", "pdf2docx/table/TablesConstructor.py", "pdf2docx/converter.py:Converter.extract_tables"]}
{"id": "C50", "title": "A piece of text is written once, with its size", "statement": "Each text span is written to the docx exactly once - as a hyperlink when it carries one and has visible text, otherwise as a run; the font size written is within 0.25pt of the source and the scaling restores it.", "quantifier": "all spans, styles and positive font sizes", "why_tests_cant": "ranges over all sizes (rounding boundaries) and all lists of styles", "anchors": ["pdf2docx/text/TextSpan.py:TextSpan.make_docx", "pdf2docx/text/TextSpan.py:_set_text_format"]}
{"id": "C51", "title": "A text block becomes one paragraph with its lines once and in order", "statement": "The paragraph made from a text block contains the content of each of its lines exactly once and in order; only tabs and line breaks are added, and a break is never put after the last line or between two lines of one row.", "quantifier": "all text blocks with any number of lines, all positions, tab stops and thresholds", "why_tests_cant": "depends on every combination of line positions, rows and thresholds", "anchors": ["pdf2docx/text/Lines.py:Lines.make_docx", "pdf2docx/text/Lines.py:parse_line_break", "pdf2docx/text/Line.py:Line.make_docx", "pdf2docx/common/docx.py:add_stop"]}
{"id": "C52", "title": "Rows of a left-aligned paragraph start where they do in the PDF", "statement": "The left indent and first line indent written for a left-aligned paragraph put the first row and the other rows at their positions in the PDF, up to the alignment threshold.", "quantifier": "all left-aligned paragraphs, horizontal and vertical, all indents", "why_tests_cant": "all positions of rows, both directions", "anchors": ["pdf2docx/text/TextBlock.py:parse_horizontal_spacing", "pdf2docx/text/TextBlock.py:_internal_alignment", "pdf2docx/text/TextBlock.py:make_docx"]}
{"id": "C53", "title": "Blocks keep their vertical position", "statement": "Adding up the spacing, line spacing, row heights and blank paragraphs written for the blocks of a page puts each block at the vertical position it has in the PDF; two tables in sequence are separated by at least 1pt.", "quantifier": "all sequences of text, image and table blocks on a page", "why_tests_cant": "errors accumulate over sequences of any length and any mixture of block kinds and overlaps", "anchors": ["pdf2docx/page/Blocks.py:parse_spacing", "pdf2docx/page/Blocks.py:make_docx", "pdf2docx/text/TextBlock.py:TextBlock.parse_line_spacing"]}
{"id": "C54", "title": "Tabs move each line to its position", "statement": "When the lines of a row are separated by tabs, pressing the written tabs moves each line to within 1pt of its position in the PDF.", "quantifier": "all rows with any number of columns, all sets of tab stops", "why_tests_cant": "any number of columns and stops", "anchors": ["pdf2docx/common/docx.py:add_stop", "pdf2docx/text/Lines.py:Lines.make_docx", "pdf2docx/text/TextBlock.py:parse_horizontal_spacing"]}
{"id": "C55", "title": "Horizontal and vertical lines drawn on the page are kept as strokes", "statement": "Every horizontal or vertical line of a stroked path (alone, in a rectangle, or connected to others) is available as a stroke for table parsing; strokes come only from drawn lines.", "quantifier": "all drawings, all groupings of paths", "why_tests_cant": "any sequence of drawing commands and orientation", "anchors": ["pdf2docx/shape/Path.py:Segments.is_iso_oriented", "pdf2docx/shape/Path.py:_cal_bbox_and_area", "pdf2docx/shape/Path.py:Path.to_shapes", "pdf2docx/shape/Paths.py:Paths.to_shapes", "pdf2docx/shape/Paths.py:contains_curve"]}
{"id": "C56", "title": "Each shape gets the right role by its position to text", "statement": "After classification each stroke is an underline candidate and, unless it lies in a text line, a border candidate; each fill is exactly one of shading or highlight, shading exactly if it contains most of a text block or line.", "quantifier": "all sets of shapes and text blocks, horizontal and vertical text", "why_tests_cant": "the search over sorted blocks stops early; must be right for every arrangement", "anchors": ["pdf2docx/shape/Shapes.py:detect_initial_categories", "pdf2docx/shape/Shape.py:semantic_type", "pdf2docx/shape/Shape.py:_check_semantic_type"]}
{"id": "C57", "title": "A filled path becomes the bounding boxes of its parts", "statement": "A filled path gives one fill per connected part, with the bounding box of the points of that part (up to 0.005pt).", "quantifier": "all paths", "why_tests_cant": "any number of points and parts", "anchors": ["pdf2docx/shape/Path.py:Segments.to_fill", "pdf2docx/shape/Path.py:_cal_bbox_and_area"]}
{"id": "C58", "title": "Parsing a table structure never raises", "statement": "Whatever strokes were grouped as a potential table, building its rows and columns does not raise, so the page is not lost.", "quantifier": "every list of strokes", "why_tests_cant": "unbounded drawings; the failing configurations (no column between the lines) are not table-like", "anchors": ["pdf2docx/table/TableStructure.py:TableStructure.parse", "pdf2docx/table/TableStructure.py:TableStructure.x_cols"]}
{"id": "C59", "title": "The outer frame of a detected table is completed", "statement": "After table detection each of the four sides of the table has a border line (within the maximum border width), drawn or added, with no gap wider than the tolerance.", "quantifier": "every table region and every set of partial border strokes", "why_tests_cant": "continuous positions, any number of segments", "anchors": ["pdf2docx/table/TableStructure.py:TableStructure._check_outer_strokes"]}
{"id": "C60", "title": "Border style of a cell comes from the strokes along its side", "statement": "A cell side gets the colour and width of the strokes drawn along it, and is left without style when less than 3/4 of it is drawn or the strokes differ.", "quantifier": "every set of strokes on the border line and every cell side", "why_tests_cant": "continuous domain", "anchors": ["pdf2docx/table/TableStructure.py:CellStructure._get_border_stroke"]}
{"id": "C61", "title": "A drawn line between two cells separates them", "statement": "Two neighbouring grid positions are taken as separate cells iff some stroke of the line between them passes their middle.", "quantifier": "every set of strokes on the line, in every order", "why_tests_cant": "all orders of all stroke sets", "anchors": ["pdf2docx/table/TableStructure.py:TableStructure._check_merged_cells"]}
{"id": "C62", "title": "Cell shading comes from a fill covering the cell", "statement": "The background of a cell is taken from a filled rectangle that covers (nearly, 90%) the area inside the borders of the cell.", "quantifier": "every cell box, border widths and list of fills", "why_tests_cant": "continuous domain", "anchors": ["pdf2docx/table/TableStructure.py:CellStructure.parse_shading"]}
{"id": "C63", "title": "Auxiliary borders of a stream table do not draw lines", "statement": "The auxiliary (reference) borders tried while reconstructing a borderless table show up only where an explicit line or shading decides them, are added only where no border exists yet, and do not disturb other borders.", "quantifier": "every set of borders, strokes and fillings, every iteration order of the set of ranges", "why_tests_cant": "unbounded", "anchors": ["pdf2docx/table/Border.py:Borders._add_full_dummy_borders", "pdf2docx/table/Border.py:Borders.finalize", "pdf2docx/table/Border.py:Border.to_stroke"]}
{"id": "C64", "title": "Borders of a borderless table are aligned", "statement": "Borders left open are placed by layout: each of them gets a position, and borders whose ranges overlap in a common interval are placed on one line.", "quantifier": "every list of ranges", "why_tests_cant": "continuous domain, unbounded number of borders", "anchors": ["pdf2docx/table/Border.py:Borders._finalize_by_layout"]}
{"id": "C65", "title": "extract_tables returns the tables of the selected pages", "statement": "extract_tables(start, end, pages) returns the tables of exactly the selected pages that could be parsed, page by page in document order.", "quantifier": "every selection, document, outcome of each page and history of the converter", "why_tests_cant": "unbounded selections and histories", "anchors": ["pdf2docx/converter.py:Converter.extract_tables", "pdf2docx/page/Page.py:Page.extract_tables"]}
{"id": "C66", "title": "Font name given to the text", "statement": "The font of a run in the docx is the name of the PDF font without subset prefix, style suffix and commas, or its localised name when the font is in the table of localised names; the name is the same after the layout has been stored and restored.", "quantifier": "every font name", "why_tests_cant": "ranges over all strings", "anchors": ["pdf2docx/text/TextSpan.py:TextSpan.font", "pdf2docx/common/constants.py:DICT_FONTS"]}
{"id": "C67", "title": "Lines of a block are put in reading order without loss", "statement": "When lines of a text block are sorted, every line appears exactly once afterwards; the lines form rows, each from left to right, and no line of a later row starts above a line of an earlier one (horizontal text).", "quantifier": "all lists of lines with any boxes and directions", "why_tests_cant": "Row detection chains pairwise comparisons over any number of lines with arbitrary boxes; tests fix a few layouts.", "anchors": ["pdf2docx/text/Lines.py:Lines.sort", "pdf2docx/common/Collection.py:Collection.sort_in_reading_order"]}
{"id": "C68", "title": "Joining lines of a row keeps the text", "statement": "Joining the lines of a text block merges only lines lying in one row and touching each other up to line_merging_threshold, and keeps all text and images in order, unless lines overlap by line_overlap_threshold; adjacent lines of a row are merged.", "quantifier": "all lists of lines with real rounded boxes, all thresholds", "why_tests_cant": "The merge loop carries state over arbitrarily many lines; loss or wrong merges depend on the sequence of gaps and overlaps.", "anchors": ["pdf2docx/text/Lines.py:Lines.join"]}
{"id": "C69", "title": "Splitting back restores the original blocks", "statement": "Splitting the lines of a joined block back gives each line exactly once, together exactly the lines of one original block, whatever the iteration order of the sets used.", "quantifier": "all lists of lines, all original blocks, all set iteration orders", "why_tests_cant": "Holds for every number of lines and every hash order.", "anchors": ["pdf2docx/text/Lines.py:Lines.split_back", "pdf2docx/text/Line.py:Line.same_source_parent"]}
{"id": "C70", "title": "Blocks side by side become one block of the flow", "statement": "After joining blocks horizontally the blocks of the page lie strictly one below the other, so that they can be written as a sequence of paragraphs, and no text is lost unless lines overlap by the configured line overlap threshold.", "quantifier": "all lists of blocks with real boxes, all positive thresholds, all set iteration orders", "why_tests_cant": "The separation is a global property of connected components of any size.", "anchors": ["pdf2docx/page/Blocks.py:Blocks.join_horizontally"]}
{"id": "C71", "title": "Floating images: none lost, none twice", "statement": "Identifying floating images partitions the images of the page into those staying in the text flow and the floating ones, each image exactly once; text is never touched, and only an image that meets another line becomes floating.", "quantifier": "all pages of text and image blocks, all gaps", "why_tests_cant": "Depends on the connectivity of any number of boxes found by a plane sweep.", "anchors": ["pdf2docx/page/Blocks.py:Blocks.identify_floating_images", "pdf2docx/common/Collection.py:Collection.group_by_connectivity"]}
{"id": "C72", "title": "Parts of a split span follow each other and lie in its box", "statement": "When a shape (underline, highlight, hyperlink) splits a text span, the parts follow each other along the text direction without overlap, lie inside the box of the span and together cover it.", "quantifier": "all spans with a real box, all shapes, both text directions", "why_tests_cant": "Depends on the position of the shape relative to every character; any number of characters.", "anchors": ["pdf2docx/text/TextSpan.py:TextSpan.split"]}
{"id": "C73", "title": "Text of extracted tables: one entry per grid cell", "statement": "extract_tables gives one entry for every row and every grid column of a table; the entry is None exactly for the positions merged into another cell, and otherwise the text of the paragraphs of the cell joined by newlines, with a placeholder for a nested table.", "quantifier": "all parsed tables of any size and nesting", "why_tests_cant": "Any number of rows, columns, merged regions and blocks per cell.", "anchors": ["pdf2docx/table/TableBlock.py:TableBlock.text", "pdf2docx/table/Cell.py:Cell.text", "pdf2docx/page/Page.py:Page.extract_tables"]}
{"id": "C74", "title": "Every vector graphic is clipped into exactly one picture", "statement": "The areas clipped for vector graphics show every detected contour: contours are divided into pictures, contours that meet share a picture, and the area of a picture is the smallest one with all its contours.", "quantifier": "all lists of contours, all iteration orders", "why_tests_cant": "Any number of contours connected in any way.", "anchors": ["pdf2docx/image/ImagesExtractor.py:ImagesExtractor.extract_vector_graphics", "pdf2docx/common/Collection.py:BaseCollection.group"]}
{"id": "C75", "title": "Exactly the internet links become hyperlinks", "statement": "Each link of the page to an internet address, and no other link, gives one hyperlink with its own area and address, in order.", "quantifier": "all lists of links", "why_tests_cant": "Any number and mix of links.", "anchors": ["pdf2docx/page/RawPage.py:RawPage._preprocess_hyperlinks"]}
{"id": "C76", "title": "Dividing a borderless table into cells always ends", "statement": "Finding the inner borders of a borderless table by repeatedly dividing its lines into columns and rows ends for every set of lines, whatever their boxes and directions, after at most as many nested divisions as there are lines.", "quantifier": "all lists of lines, all set iteration orders", "why_tests_cant": "A recursion without an explicit bound; a test can only show that it ends for the layouts tried.", "anchors": ["pdf2docx/table/TablesConstructor.py:TablesConstructor._inner_borders", "pdf2docx/text/Lines.py:Lines.group_by_columns", "pdf2docx/text/Lines.py:Lines.group_by_rows"]}
{"id": "C77", "title": "Borders of a borderless table do not cut through text", "statement": "No border drawn for a borderless table runs through a line of text of the table (up to 1pt), whatever explicit strokes and shadings moved the borders.", "quantifier": "all lists of text lines on the page, all blocks above and below, all strokes, shadings and set iteration orders", "why_tests_cant": "Every recursion level adds borders next to all other lines of the table; each pair of border and line must be apart for every arrangement.", "anchors": ["pdf2docx/table/TablesConstructor.py:TablesConstructor._stream_strokes", "pdf2docx/table/TablesConstructor.py:TablesConstructor._inner_borders", "pdf2docx/table/TablesConstructor.py:TablesConstructor._outer_borders", "pdf2docx/table/Border.py:Borders.finalize", "pdf2docx/table/Border.py:Border.finalize_by_stroke"]}
{"id": "C78", "title": "Lines share a cell of a borderless table only if no gap divides them", "statement": "Two lines of a borderless table that no border parts belong to a set of lines which neither a vertical nor a horizontal gap divides; with three or more columns, lines of different columns or different rows of a column are parted by a drawn border.", "quantifier": "all lists of text lines, strokes, shadings, set iteration orders", "why_tests_cant": "Completeness of a recursive division over any number of lines.", "anchors": ["pdf2docx/table/TablesConstructor.py:TablesConstructor._inner_borders", "pdf2docx/text/Lines.py:Lines.group_by_columns", "pdf2docx/text/Lines.py:Lines.group_by_rows"]}
{"id": "C79", "title": "Which text is considered for a borderless table", "statement": "The candidates for borderless tables are the lines of the maximal runs of consecutive blocks that are not in flow layout, lie in one row with a neighbouring block or lie in a shading: each line at most once when there are no shadings, in page order, and no line of such a block is missed.", "quantifier": "all lists of blocks and shadings", "why_tests_cant": "A loop carrying state over any number of blocks.", "anchors": ["pdf2docx/page/Blocks.py:Blocks.collect_stream_lines"]}
{"id": "C80", "title": "A page is laid out in two columns exactly when it has two columns", "statement": "A page becomes a two-column layout (a table of one row with two cells meeting at the page centre) iff it has content on both sides of the centre and nothing across the centre stands beside that content; then everything left of the centre lies in the first cell and everything right of it in the second. A page without columns gets no such table.", "quantifier": "all pages (working area, boxes of any number of lines and shapes)", "why_tests_cant": "Any number of boxes in any position; the empty and the one-sided page are missed by sample documents.", "anchors": ["pdf2docx/table/TablesConstructor.py:TablesConstructor.page_layout_table", "pdf2docx/table/TableStructure.py:TableStructure"]}
{"id": "C81", "title": "In a two-column page each column keeps its text, and what spans both stays out", "statement": "Text on one side of the centre goes completely into the cell of that side and nowhere else; headings, rules and notes across the whole width stay outside the two-column table, uncut.", "quantifier": "all pages in two columns, all blocks and shapes on them", "why_tests_cant": "Depends on the distance of arbitrary boxes to the columns.", "anchors": ["pdf2docx/table/TablesConstructor.py:TablesConstructor.page_layout_table", "pdf2docx/page/Blocks.py:Blocks._assign_block_to_tables", "pdf2docx/table/Cell.py:Cell._assign_block"]}
{"id": "C82", "title": "Tables within tables: outer tables are parsed first, none is lost", "statement": "Connected groups of strokes lying within another group are left for the nested layout, every other group is parsed as a table of its own: no parsed group lies within another parsed one, and every stroke of the page lies within the region of a parsed group. The fills offered as shadings of a table are exactly those within its region.", "quantifier": "all lists of strokes and fills, all set iteration orders", "why_tests_cant": "Any nesting and any number of groups; the failing arrangement (a group inside the overlap of two others) is not in the samples.", "anchors": ["pdf2docx/table/TablesConstructor.py:TablesConstructor.lattice_tables", "pdf2docx/common/Collection.py:BaseCollection.group_by_connectivity"]}
{"id": "C83", "title": "Nested layout parsing only moves content, never invents, reorders or crashes", "statement": "Whatever tables are detected on a page, in their cells, in tables in those cells and so on, every line in the parsed page is a line of the source page or a part of one: same direction, its characters and images taken from that line in the same order. Boxes stay nested (lines in their block, spans in their line, characters in their span) at every depth. Distributing blocks to nested tables raises no exception of its own, and the result does not depend on the recursion limit once it suffices.", "quantifier": "all pages (lists of blocks with real boxes), all outcomes of table detection at every stage and depth, all set iteration orders, all object ids", "why_tests_cant": "unbounded nesting of tables and arbitrary geometry of detected tables; tests see a few sample PDFs", "anchors": ["pdf2docx/page/Layout.py:Layout.parse", "pdf2docx/page/Blocks.py:Blocks.assign_to_tables", "pdf2docx/page/Blocks.py:Blocks._assign_block_to_tables", "pdf2docx/page/Blocks.py:Blocks.split_back", "pdf2docx/table/Cell.py:Cell._assign_block", "pdf2docx/table/TableBlock.py:TableBlock.parse", "pdf2docx/text/Line.py:Line.intersects"]}
{"id": "C84", "title": "Each character and image of a page is in the parsed layout exactly once", "statement": "After a page has been parsed into (nested) tables and paragraphs, its characters and images, collected over all cells at all depths, are exactly those of the source page, each exactly once.", "quantifier": "all pages, all table detections at every stage and depth, all set iteration orders", "why_tests_cant": "depends on arbitrary positions of text relative to arbitrary nested table geometry; needs induction over the nesting and over the stages", "anchors": ["pdf2docx/page/Layout.py:Layout.parse", "pdf2docx/page/Blocks.py:Blocks.assign_to_tables", "pdf2docx/table/Cell.py:Cell._assign_block", "pdf2docx/text/TextSpan.py:TextSpan.intersects", "pdf2docx/image/ImageSpan.py:ImageSpan.intersects"]}
{"id": "C85", "title": "Every visible character and picture of the PDF pages is in the docx exactly once", "statement": "Converting a list of pages (clean-up of the extracted blocks, search for floating images, joining, nested tables, text styles, paragraphs, docx) gives a document with one section per page, and the visible characters and inline pictures of a section together with the floating pictures of its page are exactly, with multiplicity, the visible characters and pictures of the blocks of the page that lie on it in a supported direction. For pages whose extracted boxes are real and nested, conversion raises nothing but an exception from table detection or the recursion limit.", "quantifier": "all lists of pages, all extracted blocks, all table detections at all depths, all settings, all set iteration orders, all format decisions", "why_tests_cant": "composes every stage of the conversion; a loss may need a particular combination of geometry, detected tables and stage order", "anchors": ["pdf2docx/page/Blocks.py:Blocks.clean_up", "pdf2docx/page/Blocks.py:Blocks.strip", "pdf2docx/text/Spans.py:Spans.strip", "pdf2docx/text/TextSpan.py:TextSpan.lstrip", "pdf2docx/page/Page.py:Page.parse", "pdf2docx/page/Page.py:Page.make_docx", "pdf2docx/converter.py:Converter.convert"]}
{"id": "C86", "title": "On pages without tables, lines stay whole and one-column text comes out in reading order", "statement": "On a page on which no table is found and no two lines overlap by the joining threshold, the visible characters of each line of text follow each other without interruption in the text of the page's section. If moreover the page is one column of horizontal text (blocks one below the other, in each block lines one below the other) without floating images, the visible text of the section is exactly that of the lines from top to bottom, whatever the order in which blocks and lines were extracted.", "quantifier": "all documents, all such pages in them, all extraction orders, all settings and set iteration orders, all format decisions", "why_tests_cant": "order and integrity must survive sorting, grouping, joining and splitting for arbitrary geometry", "anchors": ["pdf2docx/page/Blocks.py:Blocks.clean_up", "pdf2docx/page/Blocks.py:Blocks.join_horizontally", "pdf2docx/page/Blocks.py:Blocks.split_back", "pdf2docx/text/Lines.py:Lines.join", "pdf2docx/text/Lines.py:Lines.sort", "pdf2docx/common/Collection.py:Collection.sort_in_reading_order"]}
{"id": "C87", "title": "Cells of a docx table have the style of the PDF cells", "statement": "When a table whose cells tile its grid is written, writing succeeds, and the docx cell of every PDF cell has exactly the borders of that cell – each side with a border of non-zero width once, its size in eighths of a point and its colour as six hexadecimal digits, no other side, on all grid positions the cell covers –, its background colour (black included) exactly if it has one, zero margins left and right, upward text exactly if all its text runs upwards, and the width of its box.", "quantifier": "all table sizes, all ways to divide the grid into cells, all border widths and colours, backgrounds, text directions", "why_tests_cant": "Merged cells of every shape at every place change which docx cell later steps write to; a test covers a few layouts.", "anchors": ["pdf2docx/table/Cell.py:make_docx", "pdf2docx/table/Cell.py:_set_style", "pdf2docx/common/docx.py:set_cell_border", "pdf2docx/common/docx.py:set_cell_shading", "pdf2docx/common/docx.py:set_cell_margins", "pdf2docx/table/Row.py:make_docx"]}
{"id": "C88", "title": "The cell properties written are valid Open XML", "statement": "The properties written for a cell follow the schema of the format: each of borders, shading, margins and text direction at most once and in this order, and border sizes are whole eighths of a point from 2 to 96. (False: a cell merged from several grid positions has the margins element once per position; border sizes are eight times the PDF width, whatever it is. True for cells of one grid position, and for widths that are multiples of 1/8 from 1/4 to 12.)", "quantifier": "all tables whose cells tile the grid, all cells", "why_tests_cant": "Validity must hold for every combination of merging and styles; Word tolerates or repairs some violations silently, so an example that opens shows nothing.", "anchors": ["pdf2docx/table/Cell.py:_set_style", "pdf2docx/common/docx.py:set_cell_margins", "pdf2docx/common/docx.py:set_cell_border"]}
{"id": "C89", "title": "Each cell of a docx table shows the contents of its PDF cell", "statement": "The docx table has the cells of the parsed table as regions of its grid, and each shows the contents of its own PDF cell; nothing is overwritten and writing does not raise. (True if the cells tile the grid. False otherwise: for a box with a smaller box in its corner the smaller cell's contents replace those of the bigger one; for a box with a short line at its side writing raises an IndexError.)", "quantifier": "all tables, all contents", "why_tests_cant": "Which regions arise from drawn lines is unbounded; the failure needs cells that overlap in the grid, which only unusual line drawings produce.", "anchors": ["pdf2docx/table/Cell.py:make_docx", "pdf2docx/table/TableBlock.py:make_docx", "pdf2docx/table/Row.py:make_docx", "pdf2docx/table/TableStructure.py:_check_merging_status"]}
{"id": "C90", "title": "A page of plain text stays plain text", "statement": "A page without vector graphics whose text lies in one column (blocks one below the other, lines one below the other) is converted to paragraphs only: no table is added, and the document shows the lines from top to bottom.", "quantifier": "all pages without vector graphics with text in one column, of any number of blocks, lines and characters, with the tables the program actually finds on them, at any position in the document", "why_tests_cant": "which tables are found depends on the position of every line relative to every other and to the centre of the page; a test has one arrangement of lines", "anchors": ["pdf2docx/table/TablesConstructor.py:page_layout_table", "pdf2docx/table/TablesConstructor.py:lattice_tables", "pdf2docx/table/TablesConstructor.py:stream_tables", "pdf2docx/page/Layout.py:Layout.parse", "pdf2docx/page/Blocks.py:collect_stream_lines", "pdf2docx/page/Blocks.py:split_back", "pdf2docx/text/Lines.py:is_flow_layout"]}
{"id": "C91", "title": "A drawn table comes out with exactly its cells", "statement": "Each table drawn with ruled lines on a page is found exactly once, with exactly the cells drawn: as many rows and columns as the grid, each cell with its spans and its box; other lines on the page (underlines, lines within cells) are not taken for tables and do not disturb them.", "quantifier": "all pages with any number of drawn tables, each with any number of rows and columns and any division of its grid into cells, drawn in any pieces; any other lines; any iteration order of sets", "why_tests_cant": "whether a stroke is connected to its table depends on the order of all strokes of the page and on coincidences of coordinates with strokes elsewhere", "anchors": ["pdf2docx/table/TablesConstructor.py:lattice_tables", "pdf2docx/table/TableStructure.py:parse", "pdf2docx/table/TableStructure.py:_group_h_v_strokes", "pdf2docx/table/TableStructure.py:_check_outer_strokes", "pdf2docx/table/TableStructure.py:_check_merged_cells", "pdf2docx/common/Collection.py:group_by_connectivity", "pdf2docx/common/share.py:solve_rects_intersection", "pdf2docx/common/share.py:graph_bfs"]}
{"id": "C92", "title": "A drawn table appears once, each text in its cell", "statement": "A table drawn with lines on a page appears exactly once in the converted page, between the text above and the text below it; its cells are the cells drawn, each with a border of the drawn width on its four sides, and each cell contains exactly the lines of text drawn within it, from top to bottom, and nothing else.", "quantifier": "all pages with a drawn table of any number of rows and columns, text above, in and below it in any number of blocks (blocks may span several cells), any order of the drawings, any other lines, any set iteration order, any text formatting", "why_tests_cant": "where a table and its text end up depends on every line and stroke of the page at once (the page stage, the lattice stage, the stream stage and the distribution of blocks and shapes all see all of them)", "anchors": ["pdf2docx/page/Layout.py:Layout.parse", "pdf2docx/page/Blocks.py:Blocks._assign_block_to_tables", "pdf2docx/page/Blocks.py:assign_to_tables", "pdf2docx/page/Blocks.py:split_back", "pdf2docx/shape/Shapes.py:assign_to_tables", "pdf2docx/shape/Shapes.py:table_strokes", "pdf2docx/table/TablesConstructor.py:page_layout_table", "pdf2docx/table/TablesConstructor.py:lattice_tables", "pdf2docx/table/TablesConstructor.py:stream_tables", "pdf2docx/table/Cell.py:assign_blocks", "pdf2docx/table/Cell.py:assign_shapes"]}
{"id": "C93", "title": "Text keeps its formatting", "statement": "A piece of text is bold, italic, superscript in the docx exactly if it is so in the PDF, has its font, colour and size; it is underlined, struck through or shaded exactly if a line under it, a line through it or a coloured area behind it was recognised, in the colour of that line or area; each property is set once.", "quantifier": "all spans: all font flags, colours, sizes above 0.25pt, font names and all lists of recognised styles in any order", "why_tests_cant": "the properties are written one after the other and replace or add to each other; every combination and order of styles has to come out right", "anchors": ["pdf2docx/text/TextSpan.py:TextSpan._set_text_format", "pdf2docx/common/docx.py:set_char_scaling", "pdf2docx/common/docx.py:set_char_shading", "pdf2docx/common/docx.py:set_char_underline"]}
{"id": "C94", "title": "Exactly the text under a link area is clickable", "statement": "After conversion every visible character that lies under a link area of the page (vertical overlap, more than half of its width covered) is part of a hyperlink to the address of the (first) such area, no other character is part of a hyperlink, and no text or picture of the page is lost or moved by styling.", "quantifier": "every page with any number of blocks, lines, spans, characters and of underlines, highlights and link areas, in any order and position", "why_tests_cant": "Every shape splits spans and changes their boxes, which decides what later shapes can reach; the outcome depends on the order and position of all shapes and characters.", "anchors": ["pdf2docx/text/Lines.py:Lines.parse_text_format", "pdf2docx/text/TextBlock.py:TextBlock.parse_text_format", "pdf2docx/page/Blocks.py:Blocks.parse_text_format", "pdf2docx/text/TextSpan.py:TextSpan.split", "pdf2docx/text/TextSpan.py:TextSpan.make_docx"]}
{"id": "C95", "title": "Shapes go with the text of their table cell", "statement": "When tables are found on a page, every underline, highlight and link area that is not itself a border or shading of a table goes to the cells whose text it is drawn over (the cells of the first table covering it that it overlaps, in the same order), and stays with the page otherwise; none is lost while a cell or the page has text under it.", "quantifier": "every list of tables found, every list of shapes and blocks of a layout", "why_tests_cant": "Any number of tables, cells and shapes in any position.", "anchors": ["pdf2docx/shape/Shapes.py:Shapes.assign_to_tables", "pdf2docx/table/TableBlock.py:TableBlock.assign_shapes", "pdf2docx/table/Cell.py:Cell.assign_shapes"]}
{"id": "C96", "title": "Text with harmless drawings stays text", "statement": "Converting a page whose text stands in one column (blocks of horizontal lines one below the other, the page not being set in two columns) and whose drawings are no table - links, underlines and strikes within lines of text, other lines away from each other, white areas, and coloured areas that cover no line or block for the greater part (highlights) - makes no table: the page shows exactly its lines of text, each once, from top to bottom.", "quantifier": "all pages with any number of blocks, lines and drawings meeting the description, all settings, all set iteration orders", "why_tests_cant": "A test shows a few pages; whether some arrangement of underlines, rules and backgrounds is mistaken for a table depends on all positions together.", "anchors": ["pdf2docx/table/TablesConstructor.py:page_layout_table", "pdf2docx/table/TablesConstructor.py:lattice_tables", "pdf2docx/table/TablesConstructor.py:stream_tables", "pdf2docx/shape/Shapes.py:detect_initial_categories", "pdf2docx/shape/Shape.py:Stroke._check_semantic_type", "pdf2docx/shape/Shape.py:Fill._check_semantic_type", "pdf2docx/page/Blocks.py:collect_stream_lines", "pdf2docx/page/Layout.py:parse"]}
{"id": "C97", "title": "Text on a coloured area becomes a shaded box", "statement": "On a page of text blocks one below the other, text drawn on one filled area (a box around a note or a code listing, neither black nor white) becomes a table of one cell: the cell is exactly the area, has no borders and the colour of the area; it shows the lines of text on the area, top-down, each once; the text above the area comes before the table and the text below it after; every other line of text stays an ordinary paragraph. Highlighted words, underlines and links do not change this.", "quantifier": "all pages: any number of blocks and lines with any boxes at tenths of a point, any area and colour, any number of highlights, underlines and links in any drawing order, any settings, any iteration order of sets", "why_tests_cant": "The table is found by sorting, grouping, aligning and rounding border ranges of all shapes and lines at once; every number, order and position of blocks has to come out right.", "anchors": ["pdf2docx/table/TablesConstructor.py:TablesConstructor.stream_tables", "pdf2docx/table/TableStructure.py:TableStructure.parse", "pdf2docx/shape/Shapes.py:Shapes.table_fillings", "pdf2docx/table/Cell.py", "pdf2docx/page/Layout.py:Layout.parse"]}
{"id": "C98", "title": "Pictures and tables are not clipped again as vector graphics", "statement": "When a page has vector graphics, the areas of its pictures and of its horizontal/vertical lines are made white before contours are looked for, and nothing else is; so a picture or table does not appear a second time as a clipped graphic.", "quantifier": "all page sizes, all lists of areas, all drawings on the page, every pixel", "why_tests_cant": "Depends on the position of each area relative to the page edges (slices with negative bounds).", "anchors": ["pdf2docx/image/ImagesExtractor.py:ImagesExtractor._detect_svg_contours", "pdf2docx/page/RawPage.py:RawPage._preprocess_shapes"]}
{"id": "C99", "title": "Reading pages does not change the text of the document", "statement": "Whatever pages were read before, and with whatever pictures and graphics clipped, reading a page gives the texts that are in the PDF file; e.g. extract_tables followed by convert on one Converter, or two pages sharing a content stream.", "quantifier": "all documents, all histories of page reads", "why_tests_cant": "A history property over a shared mutable document and arbitrary content streams.", "anchors": ["pdf2docx/image/ImagesExtractor.py:ImagesExtractor._hide_page_text", "pdf2docx/page/RawPage.py:RawPage.raw_dict"]}
{"id": "C100", "title": "Text with an unnamed font stays within its place", "statement": "A span whose font is unnamed gets a replacement font; its horizontal range and those of its characters are kept, its size is not enlarged and the text is not longer than the span; all characters get the vertical range of the span, which is as high as the font size.", "quantifier": "all spans with at least one character, all font metrics", "why_tests_cant": "Ranges over all boxes, sizes and metrics of fonts.", "anchors": ["pdf2docx/text/TextSpan.py:TextSpan.set_font"]}
{"id": "C101", "title": "Pictures keep place and size", "statement": "A floating picture is written at its position on the page, and each picture with its width and height on the page.", "quantifier": "all boxes and all pixel sizes of pictures", "why_tests_cant": "Ranges over all boxes and proportions.", "anchors": ["pdf2docx/common/docx.py:add_float_image", "pdf2docx/common/docx.py:add_image", "pdf2docx/image/ImageBlock.py:ImageBlock.make_docx", "pdf2docx/image/Image.py:Image.make_docx"]}
{"id": "C102", "title": "Rounding the written distances moves nothing noticeably", "statement": "The distances written to the docx differ from the computed ones by at most 0.05pt for each row of text and each space, and the text of a table cell still fits into the exact height of its row.", "quantifier": "all pages, all numbers of blocks and rows", "why_tests_cant": "The deviation accumulates over any number of rows and blocks.", "anchors": ["pdf2docx/text/TextBlock.py:TextBlock.make_docx", "pdf2docx/table/Row.py:Row.make_docx"]}
{"id": "C103", "title": "Row heights add up to the heights of the cells", "statement": "The (exact) heights of the rows of a docx table add up to the height of the table, and the heights of the rows a cell spans to the height of the cell.", "quantifier": "all tables with any pattern of merged cells", "why_tests_cant": "Ranges over all grids and merging patterns.", "anchors": ["pdf2docx/table/TableStructure.py:TableStructure.to_table_block", "pdf2docx/table/Row.py:Row.make_docx"]}
{"id": "C104", "title": "The borders and backgrounds of table cells are drawn on the page", "statement": "In the layout of a page, every visible border of every cell of every table (nested tables included) has the width of a line of that direction drawn on the page, at the place of the side of the cell, and every background colour is the colour of an area drawn over (nine tenths of) the inside of this cell: no border and no colour is invented.", "quantifier": "all pages: all texts, all lists of strokes, filled areas and links, all settings, all nesting depths", "why_tests_cant": "Borders are looked up through clustering of line positions, shared between cells and between nested tables; it must hold for every arrangement of lines.", "anchors": ["pdf2docx/table/TableStructure.py:TableStructure.parse", "pdf2docx/table/TableStructure.py:CellStructure.parse_borders", "pdf2docx/table/TableStructure.py:CellStructure.parse_shading"]}
{"id": "C105", "title": "A drawn line is used up as a table border only where it gives a border its place", "statement": "While a borderless table is built, a line drawn on the page is marked as a table border (and so is no longer available as underline, strike-through or for another table) exactly if it was not used before and fixes the position of a border that was still open; the table then has a border at this position, within the range allowed by the texts, with the width and colour of the line. All other lines stay available.", "quantifier": "all texts of the candidate, all lists and orders of drawn lines, all shadings, all settings, all histories of marks", "why_tests_cant": "Which line wins depends on the order of lines and on borders fixed as a side effect by earlier lines.", "anchors": ["pdf2docx/table/Border.py:Border.finalize_by_stroke", "pdf2docx/table/Border.py:Borders._finalize_by_strokes", "pdf2docx/table/TablesConstructor.py:TablesConstructor.stream_tables", "pdf2docx/text/TextBlock.py:TextBlock.parse_text_format"]}
{"id": "C106", "title": "Curved and slanted drawings are graphics, not table lines", "statement": "A drawing that does not consist of horizontal and vertical lines - an ellipse, a triangle - is kept as vector graphic (clipped as picture) and never taken for table borders or for a filled rectangle (shading, highlight), whatever its size and position.", "quantifier": "all ellipses and triangles: all positions, sizes, directions of drawing, stroke and fill colours", "why_tests_cant": "The decision compares an area with a box rounded to 0.01pt, for every real size and position.", "anchors": ["pdf2docx/shape/Path.py:Segments.is_iso_oriented", "pdf2docx/shape/Path.py:Segments._cal_bbox_and_area", "pdf2docx/shape/Paths.py:Paths.contains_curve", "pdf2docx/shape/Paths.py:Paths.to_shapes"]}
{"id": "C107", "title": "When a text block counts as running text", "statement": "A text block is running text (flow layout) exactly if in every printed row of it the lines come from one block of the PDF and no gap between neighbours reaches line_separate_threshold; otherwise its lines are candidates for a borderless table.", "quantifier": "all text blocks with any number of rows and lines, all thresholds", "why_tests_cant": "Rows are connected components of a pairwise relation over any number of lines.", "anchors": ["pdf2docx/text/Lines.py:Lines.is_flow_layout", "pdf2docx/common/Collection.py:BaseCollection.group"]}
{"id": "C108", "title": "A table drawn on the page becomes a table of the document, cell by cell", "statement": "Converting a PDF page on which a full grid of r rows and k columns is drawn: the section of that page in the docx contains one table with r rows of k cells. Paragraphs before the table show exactly the lines of the page above the grid, paragraphs after it exactly those below, and the cell in row i and column j shows exactly the lines within that square; everywhere from top to bottom, with all visible characters and pictures of each line. The conversion does not fail on such pages.", "quantifier": "every document, page, grid (any number of rows and columns, any sizes), any number, order and length of text blocks and lines around and in it, every iteration order of sets, every depth of nesting, settings within the stated ranges", "why_tests_cant": "The whole chain - extraction clean-up, joining blocks side by side, sorting, lattice detection, cell assignment, splitting, rendering - has to work together for every arrangement of text and every grid; a test fixes one page.", "anchors": ["pdf2docx/converter.py:Converter.convert", "pdf2docx/page/Page.py:Page.parse", "pdf2docx/page/Blocks.py:Blocks.clean_up", "pdf2docx/page/Blocks.py:Blocks.join_horizontally", "pdf2docx/page/Blocks.py:Blocks.assign_to_tables", "pdf2docx/page/Blocks.py:Blocks.make_docx", "pdf2docx/text/Lines.py:Lines.join", "pdf2docx/table/TablesConstructor.py:TablesConstructor.lattice_tables", "pdf2docx/table/TableBlock.py:TableBlock.make_docx"]}
{"id": "C109", "title": "Lines drawn separately on a page are kept one by one", "statement": "On a page whose drawings are horizontal and vertical lines and unfilled rectangles, in any number, order and grouping into paths, where no two visible lines of the same colour overlap by as much as shape_merging_threshold of the smaller one: the shapes the page is parsed with are exactly the visible lines, each with its own ends, width and colour (a rectangle gives its four sides), and the areas of visible hyperlinks. No line is lost, doubled, merged with another one or turned into a picture of vector graphics, and no shape is invented.", "quantifier": "every page, every list of such drawings and links, every setting of curve_path_ratio >= 0, shape_merging_threshold > 1e-6 and shape_min_dimension", "why_tests_cant": "Paths are grouped by connectivity, tested for curves, cut into segments, filtered, sorted, and merged against everything kept so far; whether one line survives depends on all others on the page.", "anchors": ["pdf2docx/page/RawPage.py:RawPage._preprocess_shapes", "pdf2docx/shape/Paths.py:Paths.to_shapes", "pdf2docx/shape/Paths.py:Paths.restore", "pdf2docx/shape/Path.py:Path.to_shapes", "pdf2docx/shape/Path.py:Path.bbox", "pdf2docx/shape/Shapes.py:Shapes.restore", "pdf2docx/shape/Shapes.py:Shapes.clean_up"]}
{"id": "C110", "title": "A table drawn with lines becomes a table of the document", "statement": "Converting a PDF page on which a grid of r rows and k columns is drawn with line and rectangle commands (in any order, direction and grouping; a frame may be one rectangle), with other lines away from it: the section of that page in the docx has one table of r rows of k cells, the paragraphs before it show the lines of text above the grid, cell (i, j) exactly the lines within the square, the paragraphs after it the lines below. The conversion does not fail.", "quantifier": "every document and page, every grid of any size, every order and grouping of the drawing commands, any text around and in the grid, settings within the stated ranges", "why_tests_cant": "Drawing commands, clean-up of shapes and text, lattice detection, cell assignment and rendering have to work together for every arrangement; a test fixes one page.", "anchors": ["pdf2docx/converter.py:Converter.convert", "pdf2docx/page/RawPage.py:RawPage._preprocess_shapes", "pdf2docx/shape/Shapes.py:Shapes.clean_up", "pdf2docx/table/TablesConstructor.py:TablesConstructor.lattice_tables", "pdf2docx/table/TableBlock.py:TableBlock.make_docx"]}
{"id": "C111", "title": "A page of plain text becomes paragraphs only", "statement": "Converting a PDF page whose text stands in one column (lines one below the other), with drawings that form no table (underlines, strikes, links, separate rules, light highlights): the section of that page in the docx has no table, and its paragraphs show every line of text exactly once, from top to bottom, without the blanks at the ends of lines. The conversion does not fail.", "quantifier": "every document and page, any number of blocks and lines extracted in any order, any number and order of drawings and links, settings within the stated ranges", "why_tests_cant": "Clean-up of text and shapes, border detection, grouping of lines into rows and blocks, merging of blocks and rendering each may drop, duplicate or reorder text; a test fixes one page.", "anchors": ["pdf2docx/converter.py:Converter.convert", "pdf2docx/page/RawPage.py:RawPage.restore", "pdf2docx/page/RawPage.py", "pdf2docx/page/Blocks.py:Blocks.parse_spacing", "pdf2docx/table/TablesConstructor.py:TablesConstructor.stream_tables", "pdf2docx/page/Page.py:Page.make_docx"]}
{"id": "C112", "title": "Drawn lines and filled rectangles are kept, thin rectangles as lines", "statement": "On a page with horizontal and vertical lines and (filled) rectangles, no two of one colour overlapping for the merging share: the shapes used for tables and text styles are exactly the visible lines, filled areas and links, each with its own box and colour; a filled rectangle not wider than max_border_width counts as the line through its middle. On any page every line that is left after merging was drawn as it is, or runs through the middle of its box from end to end with the width and colour of drawn shapes.", "quantifier": "every page, every number, order and grouping of drawing commands and links; every list of shapes for the second part", "why_tests_cant": "Grouping of paths, filtering, merging in a sorted order and conversion of thin areas interact; a test fixes one drawing.", "anchors": ["pdf2docx/shape/Path.py:Path.to_shapes", "pdf2docx/shape/Paths.py:Paths.to_shapes", "pdf2docx/shape/Shapes.py:Shapes.clean_up", "pdf2docx/shape/Shape.py:Fill.to_stroke", "pdf2docx/shape/Shape.py:Stroke.update_bbox"]}
{"id": "C113", "title": "Nothing in the document that is not on its page; nothing raised but IndexError and RecursionError", "statement": "Whatever is drawn on the pages and whatever their text is: if conversion gives a document, it has one section for each page with the properties of that page, each line of text or pictures in a paragraph of a section, in or outside of tables at any nesting, is made of lines of that very page with their characters in their order, and each floating picture is a picture of one of the pages. If conversion raises, the exception is the IndexError of C58 or Python's RecursionError.", "quantifier": "all settings, all lists of pages, all drawing commands (lines, rectangles, curves, fills), links, pictures of vector graphics, and all blocks of text and pictures with real nested boxes; every iteration order of sets", "why_tests_cant": "Any drawing on the page can change which tables are found, and so where text goes; a test sees single drawings. The claim is about every composition of clean-up, shapes, tables at every nesting, paragraphs and sections.", "anchors": ["pdf2docx/converter.py:Converter.convert", "pdf2docx/page/Layout.py:Layout.clean_up", "pdf2docx/page/Layout.py:Layout.parse", "pdf2docx/table/TablesConstructor.py:TablesConstructor", "pdf2docx/page/Blocks.py:Blocks.assign_to_tables", "pdf2docx/converter.py:Pages.parse", "pdf2docx/page/Page.py:Page.make_docx"]}
{"id": "C114", "title": "Text on a coloured area becomes a one-cell table of the document, in its place", "statement": "A page of text in one column has one coloured area (neither black nor white) painted behind some whole blocks of text; everything else painted on the page is underlines, strikes, highlighted words and links. In the docx the section of that page has the text above the area as paragraphs, then a table with one cell showing the text on the area, then the text below as paragraphs, each exactly the lines of the page that are there, from top to bottom, complete up to blanks; and the document is converted without error. This holds from the drawing commands on: the area is a filled rectangle, thin filled rectangles count as lines.", "quantifier": "all such pages, all extraction orders of blocks and lines, all drawing orders, all documents and settings that make sense", "why_tests_cant": "The text goes through clean-up, stroke/fill conversion, the search for lattice and stream tables, assignment to cells and rendering; each step has thresholds that depend on all coordinates.", "anchors": ["pdf2docx/converter.py:Converter.convert", "pdf2docx/shape/Shapes.py:Shapes.clean_up", "pdf2docx/table/TablesConstructor.py:TablesConstructor.stream_tables", "pdf2docx/page/Blocks.py:Blocks.assign_to_tables", "pdf2docx/table/Cell.py:Cell.make_docx"]}
{"id": "C115", "title": "The cells of a drawn table have the colours drawn behind them", "statement": "In the table found for a grid drawn on a page, a cell that is drawn on a coloured area has the colour of that area, whether the area lies behind one cell or several; and no cell has a colour other than that of an area drawn behind it. Colours change neither the cells nor the text of the table.", "quantifier": "all pages with a drawn table of any number of rows and columns, any number of coloured areas behind any of its cells, any text in and around it, any order of the drawings, any set iteration order", "why_tests_cant": "which areas are taken for backgrounds, which cell picks which area, and whether an area also starts a table of its own depends on all text, lines and areas of the page", "anchors": ["pdf2docx/shape/Shapes.py:detect_initial_categories", "pdf2docx/shape/Shape.py:Fill._check_semantic_type", "pdf2docx/table/TableStructure.py:CellStructure.parse_borders", "pdf2docx/table/TableStructure.py:TableStructure.to_table_block", "pdf2docx/table/TablesConstructor.py:lattice_tables", "pdf2docx/table/TablesConstructor.py:stream_tables"]}
{"id": "C116", "title": "Text is decorated exactly where a line or area is drawn over it", "statement": "Every character of a page becomes underlined exactly if a line is drawn near the bottom of it, struck through exactly if a line is drawn through its middle, and highlighted exactly if a coloured area is drawn behind it (more than half of the character's width counts), in the colour of that line or area; a line that belongs to a table decorates nothing; characters, order, fonts, sizes and colours of the text stay the same.", "quantifier": "all pages of horizontal text (any blocks, lines, spans, characters) and all lists of drawn lines, areas and links, in the order they are looked at", "why_tests_cant": "every shape splits the spans left by the shapes before it, and a shape's type is changed by the text it meets, so the outcome depends on the whole history of shapes and text", "anchors": ["pdf2docx/text/TextSpan.py:TextSpan.split", "pdf2docx/text/TextSpan.py:TextSpan._parse_text_format", "pdf2docx/text/Lines.py:Lines.parse_text_format", "pdf2docx/text/TextBlock.py:TextBlock.parse_text_format", "pdf2docx/page/Blocks.py:Blocks.parse_text_format", "pdf2docx/text/TextSpan.py:TextSpan._set_text_format"]}
{"id": "C117", "title": "Decorations and links of a page reach the document", "statement": "In the section made from a page of text, every character is underlined, struck through, highlighted or linked exactly if a line, coloured area or link area is drawn over it on the page, in its colour or with its address; the section has the lines of the page from top to bottom, in paragraphs only. Documents of such pages are converted without error.", "quantifier": "all documents and all pages of text in one column, any blocks, lines, characters, any drawn lines, areas and links (subject to the conditions of C111 and C116), any set iteration order", "why_tests_cant": "which shapes are candidates depends on the text they cover and on the tables found; blocks are re-split before they are styled; each shape splits what earlier shapes left, so the outcome depends on the whole page", "anchors": ["pdf2docx/page/Layout.py:Layout.parse", "pdf2docx/page/Layout.py:_parse_text_format", "pdf2docx/shape/Shapes.py:detect_initial_categories", "pdf2docx/shape/Shapes.py:Shapes.text_highlights", "pdf2docx/shape/Shapes.py:hyperlinks", "pdf2docx/page/Blocks.py:parse_text_format", "pdf2docx/page/Blocks.py:split_back", "pdf2docx/page/Blocks.py:make_docx", "pdf2docx/text/TextSpan.py:split", "pdf2docx/text/TextSpan.py:make_docx"]}
{"id": "C118", "title": "Styling text changes no text", "statement": "Whatever lines, areas and links are drawn on the pages, the document with styled text fails or succeeds exactly like the document without styles, and shows the same: section by section the same paragraphs and tables, cells in the same places, in every paragraph the same characters, inline pictures, tabs and line breaks in the same order, and the same anchored pictures.", "quantifier": "all documents: any pages, any extracted blocks with real boxes, any drawings and links, any nesting of tables, any set iteration order", "why_tests_cant": "styling splits every run at every shape, in every cell of every nested table, drops pieces without box, and shapes change type as they are used; that nothing is ever dropped, doubled or reordered is a statement about all sequences of splits", "anchors": ["pdf2docx/page/Layout.py:_parse_text_format", "pdf2docx/page/Blocks.py:parse_text_format", "pdf2docx/text/Lines.py:parse_text_format", "pdf2docx/text/TextSpan.py:split", "pdf2docx/table/TableBlock.py:parse", "pdf2docx/converter.py:make_docx"]}
{"id": "C119", "title": "No decoration without a drawing", "statement": "Whatever is drawn on the pages of a PDF, every underline, strike-through line, highlight and hyperlink on text of the resulting docx - in paragraphs and in table cells, at any nesting - comes from a line, a filled area or a link area on the same page: with its colour or address, running along the whole decorated piece of text and reaching it, and of the kind it looks like there (thin at the bottom: underline; thin through the middle: strike-through; thick and not white: highlight). Borders of tables and backgrounds of cells decorate no text.", "quantifier": "all documents (texts, drawings, link areas), all nestings of tables, all settings, all set iteration orders", "why_tests_cant": "The styling pass mutates shared shape objects over all blocks, lines and spans, splits spans again and again and is repeated in every cell; a wrong decoration may need any combination of shapes.", "anchors": ["pdf2docx/page/Layout.py:_parse_text_format", "pdf2docx/text/Lines.py:parse_text_format", "pdf2docx/text/TextSpan.py:split", "pdf2docx/text/TextSpan.py:_parse_text_format", "pdf2docx/shape/Shapes.py:assign_to_tables"]}
{"id": "C120", "title": "Computed paragraph formats change no content", "statement": "Spacing, indents, alignment, tab stops, line breaks and margins are computed from the page itself. Whatever they come out as, they change nothing in the content: the docx holds the same sections, one per page in page order with the page's own size and computed margins, the same floating pictures, tables, cells and paragraphs, and in every paragraph the same styled pieces of lines in the same order, as with any other formats; only tabs, line breaks and distances differ. Computing them adds no exception: a conversion of parsed pages can fail only with RecursionError (nesting beyond the limit) or IndexError (an empty table row), never by a division by zero or a missing value in the formats. So a ruled table on an otherwise empty page is still shown as that table with each text in its cell, a page of text as its lines from top to bottom, no character is invented, and all decorations come from drawn shapes.", "quantifier": "all documents (texts, drawings, link areas), all nestings of tables, all settings, all set iteration orders; tables and text pages as in C108 and C111", "why_tests_cant": "Formats depend on all boxes of a layout and its cells, on averages, divisions by lengths, medians and thresholds; a lost line or a division by zero may need any combination of boxes.", "anchors": ["pdf2docx/page/Blocks.py:parse_spacing", "pdf2docx/text/TextBlock.py:parse_horizontal_spacing", "pdf2docx/text/TextBlock.py:make_docx", "pdf2docx/text/Lines.py:parse_line_break", "pdf2docx/text/Lines.py:make_docx", "pdf2docx/page/Page.py:_cal_margin"]}
{"id": "C121", "title": "A page of text keeps its lines at their heights", "statement": "For a page of text in one column, the section in the docx holds paragraphs only; together they show every line of the page once, from top to bottom. If a word processor sets these paragraphs one below the other from the top margin of the section on, with the space before, the line spacing and the space after written for each, the bottom of every paragraph comes out where the bottom of its last line is on the page, up to at most 0.05pt per line and 0.1pt per paragraph above it - whatever the fonts, the distances, the paragraphs the lines are grouped into and the other pages are.", "quantifier": "all pages of text in one column without ruled tables, with any number of lines, decorations and paragraphs, in documents with any other pages; all settings with sane values; all set iteration orders", "why_tests_cant": "Rounding errors accumulate down the page; each paragraph's distance refers to the previous block, its own first line and the line spacing, so an error at any of them displaces all that follows.", "anchors": ["pdf2docx/page/Blocks.py:parse_spacing", "pdf2docx/text/TextBlock.py:parse_line_spacing", "pdf2docx/text/TextBlock.py:make_docx", "pdf2docx/page/Page.py:_cal_margin", "pdf2docx/page/Page.py:make_docx"]}
{"id": "C122", "title": "Rows of paragraphs start where the lines do on the page", "statement": "For a page of text in one column: if a word processor sets each paragraph of the section between the margins of the section, each line in a row of its own and as wide as on the page, with the alignment, indents, first line indent, tab stops and tabs written for it, every row starts where its line starts on the page, up to the alignment thresholds and rounding - for paragraphs of a single line, flush left or right, justified, centred, hanging, or ragged lines placed by tabs.", "quantifier": "all pages of text in one column without ruled tables, all paragraphs with any number of lines in any arrangement, in documents with any other pages; all non-negative alignment thresholds; all set iteration orders", "why_tests_cant": "The alignment is decided by comparing edges of all lines with thresholds, then indents by the box and the page margins, then tabs by rounded sets of positions; each combination places rows by a different rule, and only all arrangements together show whether each rule puts every row back.", "anchors": ["pdf2docx/text/TextBlock.py:parse_horizontal_spacing", "pdf2docx/text/TextBlock.py:_internal_alignment", "pdf2docx/text/TextBlock.py:_external_alignment", "pdf2docx/text/TextBlock.py:make_docx", "pdf2docx/text/Lines.py:make_docx", "pdf2docx/common/docx.py:add_stop", "pdf2docx/page/Page.py:_cal_margin"]}
{"id": "C123", "title": "A page of text stays one page", "statement": "Converting a page of text yields a section whose content fits on one page of the same size: set from the top margin with the computed distances and row heights, the last paragraph ends above the bottom margin, so that page breaks stay where they are in the PDF.", "quantifier": "all pages of text (any number of paragraphs and rows, any positions), all margins factors", "why_tests_cant": "Rounding errors of heights and distances add up with the number of rows; whether they overflow depends on all positions and on the room that happens to be left below the text.", "anchors": ["pdf2docx/page/Page.py:Page._cal_margin", "pdf2docx/page/Blocks.py:Blocks.parse_spacing", "pdf2docx/text/TextBlock.py:TextBlock.parse_line_spacing", "pdf2docx/page/Page.py:Page.make_docx"]}
{"id": "C124", "title": "A page in two columns is shown in two columns", "statement": "A page of text in two columns left and right of its centre (with headings above the columns and notes below them) is laid out as: the headings, one layout table with one row of two cells, the notes. The left cell shows exactly the lines of the left column, from top to bottom, the right cell exactly the lines of the right column, and the blocks outside the table exactly the headings and notes. No line is lost, shown twice, or shown in the other column.", "quantifier": "all pages of horizontal text in two columns (any number of blocks and lines, blocks with lines in both columns included), all links on them, all orders in which blocks are extracted, all settings with positive tolerances, all ways of iterating over sets", "why_tests_cant": "The statement ranges over all pages; it depends on the order of four detection stages, and a test only sees some positions of the lines relative to the centre.", "anchors": ["pdf2docx/page/Layout.py:Layout._parse_layout_top_down", "pdf2docx/table/TablesConstructor.py:TablesConstructor.page_layout_table", "pdf2docx/page/Blocks.py:Blocks.assign_to_tables"]}
{"id": "C125", "title": "Vertical text is laid out as the same text turned to horizontal", "statement": "A page (or cell) of text that runs upwards gets paragraphs of the same look as the same page turned clockwise to horizontal text: alignment, start of rows, indents, tab stops, space before and after, line spacing, lines and line breaks, tabs.", "quantifier": "all layouts of any number of vertical text blocks with any number of lines, in any position, all page heights and thresholds", "why_tests_cant": "two directions have to agree for every arrangement of lines, not for sample pages", "anchors": ["pdf2docx/text/TextBlock.py:parse_horizontal_spacing", "pdf2docx/text/TextBlock.py:_internal_alignment", "pdf2docx/text/TextBlock.py:_external_alignment", "pdf2docx/text/TextBlock.py:parse_line_spacing", "pdf2docx/text/TextBlock.py:make_docx", "pdf2docx/text/Lines.py:parse_line_break", "pdf2docx/text/Lines.py:make_docx", "pdf2docx/page/Blocks.py:parse_spacing", "pdf2docx/common/Element.py:in_same_row"]}
{"id": "C126", "title": "Lines of a paragraph are broken where they have to be", "statement": "In the document a paragraph has a line break after a line exactly if another line follows and it is blank, or the free space beside the line (up to the right indent, or from the left one for right-aligned text) exceeds the configured part of the paragraph's width; there is none after its last line.", "quantifier": "every document, every text page with any number of paragraphs and lines in one column, every threshold", "why_tests_cant": "every arrangement of short and blank lines and alignments, through extraction, layout and styling", "anchors": ["pdf2docx/text/Lines.py:parse_line_break", "pdf2docx/text/Lines.py:make_docx", "pdf2docx/text/Line.py:make_docx", "pdf2docx/text/TextBlock.py:parse_horizontal_spacing", "pdf2docx/text/TextBlock.py:make_docx"]}
{"id": "C127", "title": "Text and tables keep their vertical place on the page", "statement": "On a page with text in one column above and below a drawn table, the docx section has the paragraphs above, the table, and the paragraphs below, in this order; a word processor that sets them one below the other from the top margin on ends every paragraph where its last line ends in the PDF, and the table where its lower border ends, up to the rounding of the written distances (0.05pt per line and distance, 0.1pt for the blank paragraph above the table).", "quantifier": "all documents, all pages with one drawn grid (any number of rows and columns, any positions) and horizontal text in one column around it, all settings that make sense", "why_tests_cant": "the distances written depend on what stands above and below each block (space before, after, exact line spacing, blank paragraph above a table); errors add up over any number of lines, and tests compare a few documents after rendering with a tolerance", "anchors": ["pdf2docx/page/Blocks.py:parse_spacing", "pdf2docx/page/Blocks.py:make_docx", "pdf2docx/text/TextBlock.py:TextBlock.parse_line_spacing", "pdf2docx/page/Page.py:_cal_margin"]}
{"id": "C128", "title": "Paragraphs around a table keep their horizontal place and their line breaks", "statement": "On a page with text in one column above and below a drawn table, every paragraph written above or below the table, set by a word processor between the margins of its section, has rows that start where the lines start in the PDF (flush left, flush right, hanging, or ragged; up to the alignment thresholds), and a line break exactly after the lines that are followed by a blank line or have more free space beside them than the given part of the paragraph's width: the table changes neither.", "quantifier": "all documents, all pages with one drawn grid (any number of rows and columns, any positions) and horizontal text in one column around it, all settings that make sense", "why_tests_cant": "alignment, indents, tab stops and breaks are decided by comparing all lines of a paragraph and the page; a table in the same layout takes part in the same loop, and tests compare a few documents", "anchors": ["pdf2docx/page/Blocks.py:parse_spacing", "pdf2docx/text/TextBlock.py:parse_horizontal_spacing", "pdf2docx/text/Lines.py:parse_line_break", "pdf2docx/text/TextBlock.py:make_docx"]}
{"id": "C129", "title": "Text in table cells keeps its place in the cell", "statement": "In the docx table for a drawn grid, the paragraphs of each cell show exactly the lines within that cell from top to bottom; set by a word processor inside the borders of the cell from its top on, their rows start where the lines start in the PDF, are broken where they have to be, and end where the last line of each paragraph ends, up to the thresholds and the rounding of the written distances.", "quantifier": "all documents, all pages with one drawn grid (any number of rows and columns, any positions) and horizontal text in and around it, every cell, all settings that make sense", "why_tests_cant": "the formats in a cell depend on its borders, found from all the lines drawn, and on all the text in the cell; tests compare a few documents after rendering", "anchors": ["pdf2docx/table/Cell.py:working_bbox", "pdf2docx/page/Blocks.py:parse_spacing", "pdf2docx/text/TextBlock.py:parse_horizontal_spacing", "pdf2docx/table/TableStructure.py:parse_borders"]}
{"id": "C130", "title": "Table columns keep their horizontal place", "statement": "In the docx table for a drawn grid, every row has as many cells as the grid, and in every row the columns start and end exactly where those of the grid do in the PDF, counting left margin of the section, indent of the table and cell widths; the borders of the cells are as wide as the drawn strokes.", "quantifier": "all documents, all pages with one drawn grid (any number of rows and columns, any positions) and horizontal text in and around it, every row and cell, all settings that make sense", "why_tests_cant": "margins come from all the text and shapes of the page, the indent from the margin and the table, the widths and borders from all strokes drawn; tests compare a few documents after rendering", "anchors": ["pdf2docx/table/TableBlock.py:make_docx", "pdf2docx/common/docx.py:indent_table", "pdf2docx/table/Cell.py:make_docx", "pdf2docx/table/Cell.py:_set_style", "pdf2docx/page/Page.py:margin"]}
{"id": "C131", "title": "Cells of the docx table have the colours drawn behind them", "statement": "In the docx table for a drawn grid, a cell on a coloured area that also has text on it gets the colour of this area as its background, and no cell gets a colour other than that of an area drawn behind it (or white).", "quantifier": "all documents, all pages with one drawn grid (any number of rows and columns, any positions), coloured areas behind its cells and horizontal text in and around it, every cell, all settings that make sense", "why_tests_cant": "whether an area is the background of a cell, a highlight or a border depends on all shapes and text of the page; tests compare a few documents after rendering", "anchors": ["pdf2docx/table/Cell.py:_set_style", "pdf2docx/table/TableStructure.py:parse_shading", "pdf2docx/shape/Shapes.py:detect_initial_categories", "pdf2docx/common/docx.py:set_cell_shading"]}
{"id": "C132", "title": "Tables keep their horizontal place at any nesting depth", "statement": "For every page that is converted, the docx has exactly the tables found on the page, in their order and nested as found; each table, counting from the left margin of the section or from the inner side of the left border of the cell it is in, starts where it was found, and its cells have the widths, borders and backgrounds found.", "quantifier": "all documents that are converted, all pages whatever is on them, all tables at any nesting depth, all settings", "why_tests_cant": "nesting is unbounded and the indent depends on margins computed from the whole page and on the borders of every enclosing cell; tests look at a few tables, none nested deeply", "anchors": ["pdf2docx/table/TableBlock.py:make_docx", "pdf2docx/table/Cell.py:make_docx", "pdf2docx/table/Cell.py:working_bbox", "pdf2docx/page/Blocks.py:parse_spacing", "pdf2docx/page/Blocks.py:make_docx"]}
{"id": "C133", "title": "No style of a table cell in the docx is invented", "statement": "In every table of the docx, at any nesting depth, each border written has exactly the width of a line drawn on the page in that direction (in eighths of a point), and each cell background has the colour of an area drawn on the page.", "quantifier": "all documents that are converted, all pages whatever is drawn on them, all tables at any nesting depth, all cells, all settings", "why_tests_cant": "styles are found per cell from all shapes of the page, also for tables recognised by text alone and for tables in cells; a test sees only the combinations in its files", "anchors": ["pdf2docx/table/Cell.py:_set_style", "pdf2docx/table/TableStructure.py:parse_borders", "pdf2docx/table/TableStructure.py:parse_shading", "pdf2docx/table/Border.py:finalize_by_stroke"]}
{"id": "C134", "title": "No paragraph of the docx has negative space before or after it", "statement": "In every section of the docx, in tables at any nesting depth or not, the space before and the space after each text paragraph is zero or more, even if lines of the page overlap or a block is taller than the room it has.", "quantifier": "all documents that are converted, all pages whatever is on them, all paragraphs at any nesting depth, all settings", "why_tests_cant": "distances are differences of coordinates of neighbouring blocks, lines and margins, any of which may be negative on an unusual page; a test sees only the distances of its files", "anchors": ["pdf2docx/text/TextBlock.py:make_docx", "pdf2docx/page/Blocks.py:parse_spacing", "pdf2docx/page/Blocks.py:Blocks.parse_spacing"]}
