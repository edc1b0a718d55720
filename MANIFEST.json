{
 "claims": [
  {
   "property": "C01",
   "status": "proved",
   "theorems": [
    "Props.C01_pages_selection",
    "Props.C01_empty_pages_is_omitted"
   ],
   "note": "Exact for every list and page count."
  },
  {
   "property": "C02",
   "status": "partial",
   "theorems": [
    "Props.C02_start_end_partial",
    "Props.C02_refuted_end_zero",
    "Props.C02_always_in_document"
   ],
   "note": "False at end=0 (treated as omitted, the whole rest is converted): refuted with a witness; proved whenever end is omitted or not 0."
  },
  {
   "property": "C03",
   "status": "partial",
   "theorems": [
    "Props.C03_only_selected_partial",
    "Props.C03_refuted_empty_selection"
   ],
   "note": "False for an empty selection: parse() then finalizes nothing but make_docx of already parsed pages / whole document is attempted; see the refuted theorem. Proved for non-empty selections on a fresh converter."
  },
  {
   "property": "C04",
   "status": "proved",
   "theorems": [
    "Props.C04_page_isolation",
    "Props.C04_other_pages_irrelevant",
    "Props.C04_unselected_untouched"
   ],
   "note": "Proved for every outcome of every page."
  },
  {
   "property": "C05",
   "status": "proved",
   "theorems": [
    "Props.C05_document_order",
    "Props.C05_document_content"
   ],
   "note": "Proved for every history."
  },
  {
   "property": "C06",
   "status": "proved",
   "theorems": [
    "Props.C06_history"
   ],
   "note": "Proved for every history of parse/restore calls."
  },
  {
   "property": "C07",
   "status": "proved",
   "theorems": [
    "Props.C07_nothing_parsed",
    "Props.C07_otherwise_no_exception"
   ],
   "note": "Proved."
  },
  {
   "property": "C08",
   "status": "partial",
   "theorems": [
    "Props.C08_refuted_old_output_lost",
    "Props.C08_crash_points_partial"
   ],
   "note": "False: make_docx removes the old file first; witness. The partial theorem lists exactly what can be on disk at each crash point."
  },
  {
   "property": "C09",
   "status": "partial",
   "theorems": [
    "Props.C09_default_name_partial",
    "Props.C09_refuted_no_lowercase_extension",
    "Props.C09_given_name"
   ],
   "note": "False for names without the lower-case text .pdf (e.g. X.PDF): docx name equals the PDF name, which is removed. Partial: names containing .pdf."
  },
  {
   "property": "C10",
   "status": "partial",
   "theorems": [
    "Props.C10_one_based_range_partial",
    "Props.C10_one_based_pages",
    "Props.C10_refuted_end_one",
    "Props.C10_end_zero_is_omitted",
    "Props.C10_start_below_one",
    "Props.C10_debug_page"
   ],
   "note": "False for end=1 (becomes 0 = omitted). Partial: everything else."
  },
  {
   "property": "C11",
   "status": "partial",
   "theorems": [
    "Props.C11_exact",
    "Props.C11_multi_eq_sequential_partial",
    "Props.C11_refuted_gap",
    "Props.C11_refuted_idle_worker",
    "Props.C11_idle_iff",
    "Props.C11_refuted_empty_selection"
   ],
   "note": "False: gaps inside `pages`, empty selections and idle workers. Partial: contiguous ranges without idle worker; exact characterisation in C11_exact."
  },
  {
   "property": "C12",
   "status": "proved",
   "theorems": [
    "Props.C12_segments_partition",
    "Props.C12_segment_size"
   ],
   "note": "Proved for every range and CPU count."
  },
  {
   "property": "C13",
   "status": "proved",
   "theorems": [
    "Props.C13_schedule_independent",
    "Props.C13_missing_file_skipped"
   ],
   "note": "Proved for every permutation of workers."
  },
  {
   "property": "C14",
   "status": "proved",
   "theorems": [
    "Props.C14_restore_store",
    "Props.C14_ids_reachable",
    "Props.C14_store_again",
    "Props.C14_missing_id"
   ],
   "note": "Proved."
  },
  {
   "property": "C15",
   "status": "partial",
   "theorems": [
    "Props.C15_roundtrip_partial",
    "Props.C15_docx_partial",
    "Props.C15_tables_partial",
    "Props.C15_floating_images_partial",
    "Props.C15_floating_images_dropped_partial",
    "Props.C15_refuted_floating_image",
    "Props.C15_refuted_stale_floating_image",
    "Props.C15_refuted_stream_table",
    "Props.C15_refuted_rotated",
    "Props.C15_refuted_font",
    "Props.C15_refuted_line_box",
    "Props.C15_stored_type"
   ],
   "note": "Proved at any depth of nesting for pages without floating images, with no rotation in effect; refuted for floating images (never drawn after restore; stale ones kept), stream tables (become lattice), rotated pages (rotated twice when the last parsed page was rotated), fonts with commas, line boxes larger than their spans. Shapes and the JSON text are not modelled."
  },
  {
   "property": "C16",
   "status": "partial",
   "theorems": [
    "Props.C16_slice_meaning",
    "Props.C16_getitem_int",
    "Props.C16_getitem_slice_partial",
    "Props.C16_refuted_negative_stop",
    "Props.C16_refuted_examples"
   ],
   "note": "Integer index exact; slices false for negative stops (negative stop treated like range, not like a list slice). Partial: non-negative bounds."
  },
  {
   "property": "C17",
   "status": "partial",
   "theorems": [
    "Props.C17_user_overrides_default",
    "Props.C17_documented_defaults",
    "Props.C17_no_leak",
    "Props.C17_stream_tables_on_request",
    "Props.C17_stream_tables_values",
    "Props.C17_refuted_debug_leak",
    "Props.C17_debug_partial"
   ],
   "note": "User keys override defaults; `debug` leaks: refuted."
  },
  {
   "property": "C18",
   "status": "proved",
   "theorems": [
    "Props.C18_decode"
   ],
   "note": "Proved for every 24-bit integer."
  },
  {
   "property": "C19",
   "status": "proved",
   "theorems": [
    "Props.C19_round_trip",
    "Props.C19_injective",
    "Props.C19_decode_encode_error"
   ],
   "note": "Proved."
  },
  {
   "property": "C20",
   "status": "proved",
   "theorems": [
    "Props.C20_range",
    "Props.C20_colour_spaces"
   ],
   "note": "Proved over rationals."
  },
  {
   "property": "C21",
   "status": "proved",
   "theorems": [
    "Props.C21_connected_components",
    "Props.C21_elements_conserved",
    "Props.C21_unique",
    "Props.C21_groups"
   ],
   "note": "Proved for every list of elements and every symmetric relation given as reported pairs."
  },
  {
   "property": "C22",
   "status": "proved",
   "theorems": [
    "Props.C22_reported_pairs_overlap",
    "Props.C22_never_raises",
    "Props.C22_groups_are_chains"
   ],
   "note": "Proved."
  },
  {
   "property": "C23",
   "status": "partial",
   "theorems": [
    "Props.C23_overlapping_pairs_reported_partial",
    "Props.C23_overlapping_same_group_partial",
    "Props.C23_refuted_aligned_sides"
   ],
   "note": "False when left sides coincide with sides of earlier rectangles (aligned rectangles): refuted; proved if no earlier rectangle has a side at the left side of the right one."
  },
  {
   "property": "C24",
   "status": "partial",
   "theorems": [
    "Props.C24_parent_covers_partial",
    "Props.C24_parent_smallest_partial",
    "Props.C24_collection_bbox_partial",
    "Props.C24_refuted_degenerate"
   ],
   "note": "False for degenerate (zero-area) boxes, which fitz unions ignore: refuted; proved for boxes with area."
  },
  {
   "property": "C25",
   "status": "partial",
   "theorems": [
    "Props.C25_vertical_symm_partial",
    "Props.C25_empty",
    "Props.C25_horizontal_symm_partial",
    "Props.C25_refuted_mixed_directions",
    "Props.C25_same_row_symm",
    "Props.C25_self_aligned",
    "Props.C25_union_laws",
    "Props.C25_contains",
    "Props.C25_main_bbox",
    "Props.C25_element_contains",
    "Props.C25_contained_in"
   ],
   "note": "Alignment symmetric when both elements have the same text direction; refuted for mixed directions; remaining geometry laws proved."
  },
  {
   "property": "C26",
   "status": "proved",
   "theorems": [
    "Props.C26_stored_coordinates",
    "Props.C26_covers_kept"
   ],
   "note": "Proved."
  },
  {
   "property": "C27",
   "status": "proved",
   "theorems": [
    "Props.C27_reading_order",
    "Props.C27_line_order"
   ],
   "note": "Proved: permutation, sorted by the key, stable, idempotent."
  },
  {
   "property": "C28",
   "status": "proved",
   "theorems": [
    "Props.C28_split_conserves_text",
    "Props.C28_line_conserves_text"
   ],
   "note": "Proved for every span, shape and sequence of shapes."
  },
  {
   "property": "C29",
   "status": "partial",
   "theorems": [
    "Props.C29_refuted_two_blocks",
    "Props.C29_exactly_covered_partial",
    "Props.C29_untouched",
    "Props.C29_refuted_not_consecutive",
    "Props.C29_style_decision",
    "Props.C29_refuted_type_carried_over",
    "Props.C29_char_covered"
   ],
   "note": "Proved when covered characters are consecutive; refuted for non-consecutive covered characters and for types carried over between spans."
  },
  {
   "property": "C30",
   "status": "partial",
   "theorems": [
    "Props.C30_lstrip",
    "Props.C30_rstrip",
    "Props.C30_line_visible",
    "Props.C30_refuted_both_sides"
   ],
   "note": "Visible text kept for all lines; single-side strip exact; refuted: both sides at once (right side skipped when the left was stripped)."
  },
  {
   "property": "C31",
   "status": "proved",
   "theorems": [
    "Props.C31_one_section_per_page"
   ],
   "note": "Proved for every non-empty list of pages."
  },
  {
   "property": "C32",
   "status": "proved",
   "theorems": [
    "Props.C32_page_good",
    "Props.C32_document_good"
   ],
   "note": "Proved for pages and whole documents, and for all cells at every depth."
  },
  {
   "property": "C33",
   "status": "partial",
   "theorems": [
    "Props.C33_content_once_in_order",
    "Props.C33_floats_once",
    "Props.C33_floats_on_their_page_partial",
    "Props.C33_refuted_floats_on_previous_page",
    "Spec.C33_pages_written"
   ],
   "note": "Text and tables once and in order: proved at every depth. Floating images once: proved. Floating images on their own page: refuted for a page with floating images only (anchored on the previous page), partial otherwise."
  },
  {
   "property": "C34",
   "status": "partial",
   "theorems": [
    "Props.C34_margin_range",
    "Props.C34_working_area_contains_content_partial",
    "Props.C34_empty_page",
    "Props.C34_refuted_hairline",
    "Props.C34_refuted_bottom_rounding",
    "Props.C34_page_partial"
   ],
   "note": "Margin range proved; working area contains content: proved for boxes with area (exact up to bottom factor 1/2, else 0.05pt); refuted for hairlines without area and for rounding with bottom factor 1."
  },
  {
   "property": "C35",
   "status": "proved",
   "theorems": [
    "Props.C35_group_segments",
    "Props.C35_unique"
   ],
   "note": "Proved, with uniqueness of the decomposition."
  },
  {
   "property": "C36",
   "status": "proved",
   "theorems": [
    "Props.C36_rect_outline",
    "Props.C36_rect_path",
    "Props.C36_width_is_doubled"
   ],
   "note": "Proved."
  },
  {
   "property": "C37",
   "status": "partial",
   "theorems": [
    "Props.C37_covered",
    "Props.C37_merges_same_colour",
    "Props.C37_hyperlinks",
    "Props.C37_refuted_fill_becomes_stroke"
   ],
   "note": "Cover, colour and hyperlink parts proved; refuted: a large fill can be merged into a line and become a stroke."
  },
  {
   "property": "C38",
   "status": "partial",
   "theorems": [
    "Props.C38_rectangular",
    "Props.C38_refuted_row_dropped"
   ],
   "note": "Proved: all rows of a parsed table have the same number of entries. Refuted: one row per grid row (rows whose cells are all merged away are dropped)."
  },
  {
   "property": "C39",
   "status": "partial",
   "theorems": [
    "Props.C39_spans_inside_grid",
    "Props.C39_refuted_span_outside_table",
    "Props.C39_table_partial"
   ],
   "note": "Proved for the grid structure (every border pattern). For the resulting table block refuted (dropped rows) and proved when a cell of positive size starts in every row."
  },
  {
   "property": "C40",
   "status": "partial",
   "theorems": [
    "Props.C40_division_partial",
    "Props.C40_refuted_overlap",
    "Props.C40_table_partial"
   ],
   "note": "Refuted for arbitrary patterns (box in the corner of a box). Proved: for every division of the grid into rectangles whose borders are drawn, detection recovers exactly the division, from strokes to table rows with boxes."
  },
  {
   "property": "C41",
   "status": "partial",
   "theorems": [
    "Props.C41_clusters_partial",
    "Props.C41_ascending_partial",
    "Props.C41_refuted_stroke_lost",
    "Props.C41_rows_and_columns_partial"
   ],
   "note": "Refuted in general (group overwritten when the running average hits another key). Proved for clustered positions (any order) and for ascending positions (any distances)."
  },
  {
   "property": "C42",
   "status": "proved",
   "theorems": [
    "Props.C42_decided_once",
    "Props.C42_in_range",
    "Props.C42_position_in_range"
   ],
   "note": "Proved for every sequence of finalize-by-value, by-stroke, by-strokes and by-layout calls."
  },
  {
   "property": "C43",
   "status": "partial",
   "theorems": [
    "Props.C43_disjoint_partial",
    "Props.C43_refuted_duplicate",
    "Props.C43_refuted_raises",
    "Props.C43_no_exception_partial",
    "Props.C43_which_table",
    "Props.C43_whole"
   ],
   "note": "True for tables that do not overlap (C43_disjoint_partial, for every block and any number of tables) and never raises if no line has zero area. Refuted in general: overlapping tables duplicate lines, and a zero-area line in a block that straddles a table border raises ZeroDivisionError."
  },
  {
   "property": "C44",
   "status": "partial",
   "theorems": [
    "Props.C44_cell_content_partial",
    "Props.C44_exactly_once_partial",
    "Props.C44_refuted_both",
    "Props.C44_refuted_almost_contained",
    "Props.C44_refuted_lost",
    "Props.C44_refuted_image_lost",
    "Props.C44_refuted_table_lost",
    "Props.C44_shapes_touch"
   ],
   "note": "Exact content of each cell (C44_cell_content_partial), and exactly-once when cells do not overlap and each character/image lies inside a cell (C44_exactly_once_partial). Refuted in general: a character half in two cells is in both; one at the corner of four cells is lost; an image (less than 75% in each cell) or nested table over a border is lost; a block 95% in a cell is put there whole while the rest also goes to the neighbour."
  },
  {
   "property": "C45",
   "status": "partial",
   "theorems": [
    "Props.C45_spacing_adds_up_partial",
    "Props.C45_spacing_nonneg",
    "Props.C45_refuted_one_row_mixed_heights",
    "Props.C45_refuted_negative_line_spacing"
   ],
   "note": "Non-negative space before and sum proved; refuted: one row with lines of different height, and negative line spacing when the block ends above the end of the previous block."
  },
  {
   "property": "C46",
   "status": "proved",
   "theorems": [
    "Props.C46_definite_alignment",
    "Props.C46_indents_fit",
    "Props.C46_justify_iff",
    "Props.C46_single_row"
   ],
   "note": "Proved for all inputs."
  },
  {
   "property": "C47",
   "status": "partial",
   "theorems": [
    "Props.C47_result",
    "Props.C47_text_untouched",
    "Props.C47_image_kept_partial",
    "Props.C47_only_recovered",
    "Props.C47_refuted_stacked",
    "Props.C47_recovered"
   ],
   "note": "Exact outcome of every block and recovered image proved (C47_result). Refuted: of two pictures at the same place one is lost. Kept otherwise (C47_image_kept_partial). PyMuPDF is outside the model."
  },
  {
   "property": "C48",
   "status": "partial",
   "theorems": [
    "Props.C48_split_partition",
    "Props.C48_refuted_default_threshold",
    "Props.C48_selected_intersect_partial"
   ],
   "note": "Partition proved; selected elements do intersect when the threshold is positive; refuted for the default threshold and zero."
  },
  {
   "property": "C49",
   "status": "partial",
   "theorems": [
    "Props.C49_visible_text_partial",
    "Props.C49_refuted_words_glued"
   ],
   "note": "Visible characters kept in order; refuted: blanks between spans are lost (words glued)."
  },
  {
   "property": "C50",
   "status": "proved",
   "theorems": [
    "Props.C50_text_once",
    "Props.C50_font_size"
   ],
   "note": "Proved, including the exact set of sizes that raise."
  },
  {
   "property": "C51",
   "status": "proved",
   "theorems": [
    "Props.C51_lines_once_in_order",
    "Props.C51_line_breaks"
   ],
   "note": "Proved."
  },
  {
   "property": "C52",
   "status": "partial",
   "theorems": [
    "Props.C52_row_starts_partial",
    "Props.C52_refuted_first_line_indent",
    "Props.C52_refuted_vertical"
   ],
   "note": "Proved for none or hanging indent of horizontal text; refuted for ordinary first line indent and for vertical text."
  },
  {
   "property": "C53",
   "status": "partial",
   "theorems": [
    "Props.C53_vertical_positions_partial",
    "Props.C53_refuted_gaps_and_overlaps",
    "Props.C53_adjacent_tables_spaced"
   ],
   "note": "Proved for stacked blocks (text may overlap); refuted for tables below small gaps and overlapping tables; blank paragraphs between tables at least 1pt: proved."
  },
  {
   "property": "C54",
   "status": "partial",
   "theorems": [
    "Props.C54_no_needless_tab_partial",
    "Props.C54_tabs_reach_target_partial",
    "Props.C54_refuted_third_column",
    "Props.C54_refuted_vertical",
    "Props.C54_stops"
   ],
   "note": "Single step proved when the tracked cursor position is right; refuted for three columns (cursor position wrong) and for vertical text (no tabs at all)."
  },
  {
   "property": "C55",
   "status": "partial",
   "theorems": [
    "Props.C55_lines_kept_partial",
    "Props.C55_strokes_come_from_lines",
    "Props.C55_closing_line",
    "Props.C55_single_line",
    "Props.C55_rectangle_of_lines_partial",
    "Props.C55_refuted_open_corner",
    "Props.C55_refuted_hairline_polygon",
    "Props.C55_no_curves",
    "Props.C55_svg_sound"
   ],
   "note": "Kept if the path is iso-oriented (characterised for single lines and rectangles of lines >= 0.2pt); refuted: open corner drawn as one path, hairline polygon."
  },
  {
   "property": "C56",
   "status": "partial",
   "theorems": [
    "Props.C56_determined_iff_partial",
    "Props.C56_categories",
    "Props.C56_refuted_vertical_text"
   ],
   "note": "Proved for blocks in top-to-bottom order; refuted for vertical text."
  },
  {
   "property": "C57",
   "status": "proved",
   "theorems": [
    "Props.C57_fill_boxes"
   ],
   "note": "Proved."
  },
  {
   "property": "C58",
   "status": "partial",
   "theorems": [
    "Props.C58_refuted_page",
    "Props.C58_refuted_axis",
    "Props.C58_wide_partial"
   ],
   "note": "Refuted (axis with ticks raises IndexError), also on the level of the whole page (C58_refuted_page: the page has text and an axis with ticks; parsing the page raises). Proved when the horizontal strokes reach over more than twice the border width."
  },
  {
   "property": "C59",
   "status": "proved",
   "theorems": [
    "Props.C59_frame_complete",
    "Props.C59_all_sides",
    "Props.C59_sorted"
   ],
   "note": "Proved for all four sides, tolerance 1 pt (MINOR_DIST) beyond the stroke boxes."
  },
  {
   "property": "C60",
   "status": "partial",
   "theorems": [
    "Props.C60_sorted_partial",
    "Props.C60_refuted_coverage",
    "Props.C60_refuted_width"
   ],
   "note": "Exact characterisation for strokes sorted by start; refuted: coverage (overlapping strokes are counted twice) and equal width (only colours are compared)."
  },
  {
   "property": "C61",
   "status": "partial",
   "theorems": [
    "Props.C61_sorted_partial",
    "Props.C61_refuted_unsorted"
   ],
   "note": "Exact for strokes sorted by start; refuted for other orders (inner lines of lattice tables are not sorted)."
  },
  {
   "property": "C62",
   "status": "proved",
   "theorems": [
    "Props.C62_shading"
   ],
   "note": "Proved up to the rounding of the ratio to 0.01."
  },
  {
   "property": "C63",
   "status": "partial",
   "theorems": [
    "Props.C63_reference_borders",
    "Props.C63_refuted_duplicate",
    "Props.C63_stroke_decides",
    "Props.C63_stroke_ignored",
    "Props.C63_drawn",
    "Props.C63_fill_sides",
    "Props.C63_references_complete"
   ],
   "note": "Proved: existing borders are kept, an auxiliary border gives a stroke only if its position was decided, within its range. Refuted: not added where a border exists (dictionary keyed by the bound method, call parentheses missing)."
  },
  {
   "property": "C64",
   "status": "partial",
   "theorems": [
    "Props.C64_refuted_left_open",
    "Props.C64_aligned_partial",
    "Props.C64_without_strokes_partial"
   ],
   "note": "Refuted: a border can stay open (its drawn position is then the middle of its range, C42). Proved: ranges with a common interval are all placed on one line."
  },
  {
   "property": "C65",
   "status": "partial",
   "theorems": [
    "Props.C65_selected_pages_partial",
    "Props.C65_refuted_used_converter",
    "Props.C65_refuted_empty_selection",
    "Props.C65_same_pages_as_docx"
   ],
   "note": "Proved for a fresh converter with a non-empty selection without repetitions; on any converter the result consists of the tables of the pages make_docx would write. Refuted: a converter used before also returns the tables of pages parsed earlier; a selection without existing page returns all tables."
  },
  {
   "property": "C66",
   "status": "partial",
   "theorems": [
    "Props.C66_no_markers",
    "Props.C66_name_between",
    "Props.C66_localised",
    "Props.C66_stable_partial",
    "Props.C66_refuted_dfkai"
   ],
   "note": "Stability is refuted for names with a comma (C15_refuted_font); the table entry DFKAISB can never apply to DFKai-SB. Upper case of non-ASCII letters is not modelled."
  },
  {
   "property": "C67",
   "status": "partial",
   "theorems": [
    "Props.C67_permutation",
    "Props.C67_rows_partial",
    "Props.C67_refuted_vertical",
    "Props.C67_columns_partial"
   ],
   "note": "Permutation for all lines; row order for horizontal text. Refuted for vertical text: lines of a row are sorted by increasing bottom edge, i.e. in reverse reading order."
  },
  {
   "property": "C68",
   "status": "partial",
   "theorems": [
    "Props.C68_content_kept_partial",
    "Props.C68_nothing_lost",
    "Props.C68_same_row",
    "Props.C68_refuted_adjacent_not_joined",
    "Props.C68_refuted_overlap_loses_text"
   ],
   "note": "Rows, adjacency and content proved. Refuted: after a gap the next two adjacent lines are not merged; of overlapping lines the second is dropped with its text, and the following line is joined across the gap."
  },
  {
   "property": "C69",
   "status": "proved",
   "theorems": [
    "Props.C69_split_back"
   ],
   "note": "Full, for every set iteration order. Identity of the parent is modelled as a number; CPython may reuse an id after collection (not modelled)."
  },
  {
   "property": "C70",
   "status": "proved",
   "theorems": [
    "Props.C70_separated",
    "Props.C70_content_kept"
   ],
   "note": "Separation for all blocks whose lines and spans lie inside them; content when no lines overlap by the threshold (as in the statement)."
  },
  {
   "property": "C71",
   "status": "proved",
   "theorems": [
    "Props.C71_images_conserved",
    "Props.C71_floats_overlap"
   ],
   "note": "Conservation for image blocks with one line (as made by Blocks.restore/from images); soundness for boxes larger than the gap."
  },
  {
   "property": "C72",
   "status": "partial",
   "theorems": [
    "Props.C72_parts_in_order_partial",
    "Props.C72_refuted_box_cut"
   ],
   "note": "Proved: order, no overlap and containment (C72_parts_in_order_partial). False for the cover: a shape over less than half of the first (or last) character leaves the text unstyled but cuts the box of the span (C72_refuted_box_cut)."
  },
  {
   "property": "C73",
   "status": "proved",
   "theorems": [
    "Props.C73_table_text"
   ],
   "note": "Full statement about the text of parsed tables; a cell is merged away when its box is empty, as in the code."
  },
  {
   "property": "C74",
   "status": "proved",
   "theorems": [
    "Props.C74_contours_clipped"
   ],
   "note": "Contours as boxes with area and coordinates rounded to 0.1 (OpenCV gives integers); clipping itself is outside."
  },
  {
   "property": "C75",
   "status": "proved",
   "theorems": [
    "Props.C75_hyperlinks"
   ],
   "note": "Full statement."
  },
  {
   "property": "C76",
   "status": "proved",
   "theorems": [
    "Props.C76_division_ends"
   ],
   "note": "Full."
  },
  {
   "property": "C77",
   "status": "partial",
   "theorems": [
    "Props.C77_text_not_cut_partial",
    "Props.C77_borderless_partial",
    "Props.C77_refuted_overlapping",
    "Props.C77_refuted_reference",
    "Props.C77_frame_partial"
   ],
   "note": "Refuted in two ways: lines of a column overlapping by less than a tenth of their height get a border through both; a stroke in one column makes auxiliary borders of other columns real, through their text. Proved for horizontal text with clear rows, for all borders but the auxiliary ones; for all of them without strokes and shadings."
  },
  {
   "property": "C78",
   "status": "partial",
   "theorems": [
    "Props.C78_cells_undivided_partial",
    "Props.C78_three_columns_partial",
    "Props.C78_refuted_overlapping",
    "Props.C78_ends_drawn"
   ],
   "note": "Proved for horizontal text with clear rows; C78_refuted_overlapping: lines overlapping by less than a tenth of their height are not parted."
  },
  {
   "property": "C79",
   "status": "partial",
   "theorems": [
    "Props.C79_candidates",
    "Props.C79_with_shadings",
    "Props.C79_used_shadings",
    "Props.C79_shaded_partial",
    "Props.C79_refuted_shaded"
   ],
   "note": "Refuted for shadings: at most one shading is left behind per block, so a block in a later shading can be missed. The rest is full; block alignment is characterised by C25."
  },
  {
   "property": "C80",
   "status": "partial",
   "theorems": [
    "Props.C80_two_columns_partial",
    "Props.C80_otherwise",
    "Props.C80_refuted_blank_page",
    "Props.C80_refuted_title_page",
    "Props.C80_refuted_one_column"
   ],
   "note": "Proved for pages with content on both sides (with the exact converse C80_otherwise). Refuted: a blank page and a page with only a centred title get a stray table at the top edge (the box of no elements is (0,0,0,0)); a page with one short line gets two columns, one empty."
  },
  {
   "property": "C81",
   "status": "partial",
   "theorems": [
    "Props.C81_each_side_partial",
    "Props.C81_headings_stay_partial",
    "Props.C81_refuted_rule",
    "Props.C81_refuted_small_print"
   ],
   "note": "Proved for blocks within one half of the page and for spanning content at least 5pt away from the columns. Refuted: the table reaches 5pt beyond the columns, so a rule or small print across the page within 5pt is put into (cut between) both cells."
  },
  {
   "property": "C82",
   "status": "partial",
   "theorems": [
    "Props.C82_kept_apart",
    "Props.C82_dropped_inside_partial",
    "Props.C82_refuted_overlapping",
    "Props.C82_page_partial"
   ],
   "note": "Proved when any two groups are nested or apart (C82_kept_apart needs no condition). Refuted: a small group inside the overlap of two larger ones makes the smaller of these vanish (one instance per connected component is kept)."
  },
  {
   "property": "C83",
   "status": "proved",
   "theorems": [
    "Props.C83_shapes_nothing_invented",
    "Props.C83_shapes_boxes_nested",
    "Props.C83_shapes_exceptions",
    "Props.C83_nothing_invented",
    "Props.C83_boxes_stay_nested",
    "Props.C83_no_exception",
    "Props.C83_depth_irrelevant"
   ],
   "note": "Table detection is an arbitrary function (oracle) in the C83 theorems of Layout.lean; in C83_shapes_* the detection itself is modelled (Full.lean) with the shapes of the page and of each cell. Distribution, cutting at cells, splitting back and the recursion are modelled in both."
  },
  {
   "property": "C84",
   "status": "partial",
   "theorems": [
    "Props.C84_exactly_once_partial",
    "Props.C84_refuted_lost",
    "Props.C84_refuted_twice"
   ],
   "note": "Proved whenever at every reached stage the tables found fit (tables and cells do not overlap, each character of the text given to a table lies in one of its cells, inner tables belong to one cell). Refuted in general: a character over a corner is lost, one over a border is duplicated."
  },
  {
   "property": "C85",
   "status": "partial",
   "theorems": [
    "Props.C85_refuted_twice",
    "Props.C85_everything_once_partial",
    "Props.C85_no_exception",
    "Props.C85_refuted_lost"
   ],
   "note": "C85_everything_once_partial: every visible character and picture exactly once, under the stated conditions on overlaps and on the tables found (parameter). Refuted without them: C85_refuted_lost (overlapping lines), C85_refuted_twice (with the concrete detection of tables on a page without vector graphics, the page number of a table-of-contents entry appears twice). C85_no_exception is about cleaning up and parsing; writing the docx may still raise for tables whose cells do not tile the grid (C89_refuted_raises)."
  },
  {
   "property": "C86",
   "status": "proved",
   "theorems": [
    "Props.C86_lines_whole",
    "Props.C86_reading_order",
    "Props.C86_interleaved_blocks"
   ],
   "note": "C86_lines_whole and C86_reading_order are about the composed pipeline of Pipe.lean. C86_interleaved_blocks shows that the condition on blocks is needed: the text of a block lying between two lines of another block comes after both."
  },
  {
   "property": "C87",
   "status": "proved",
   "theorems": [
    "Props.C87_cell_style",
    "Props.C87_border_update"
   ],
   "note": "Hypothesis: the cells tile the grid (see C40 for when they do)."
  },
  {
   "property": "C88",
   "status": "partial",
   "theorems": [
    "Props.C88_refuted_merged",
    "Props.C88_single_partial",
    "Props.C88_refuted_size"
   ],
   "note": "Refuted for all merged cells and for widths off the grid of eighths; proved for single cells; exact number of margin elements proved."
  },
  {
   "property": "C89",
   "status": "partial",
   "theorems": [
    "Props.C89_tiled_partial",
    "Props.C89_rendering_partial",
    "Props.C89_refuted_overlap",
    "Props.C89_refuted_raises"
   ],
   "note": "Tiling tables proved, also that the rendering used by C32/C33/C85 agrees; two refutations from drawn strokes to the docx table."
  },
  {
   "property": "C90",
   "status": "partial",
   "theorems": [
    "Props.C90_plain_text_partial",
    "Props.C90_refuted_full_lines",
    "Props.C90_refuted_short_lines"
   ],
   "note": "Proved for text of which one line lies beside the centre of the page and one line across it is neither above nor below all lines beside it (C90_plain_text_partial), with the concrete detection of tables (Detect.lean), not a parameter. False otherwise: a page of full-width lines gets an empty table above the text (C90_refuted_full_lines), a page of short lines becomes a two-column table (C90_refuted_short_lines)."
  },
  {
   "property": "C91",
   "status": "partial",
   "theorems": [
    "Props.C91_cells_partial",
    "Props.C91_exact_partial",
    "Props.C91_segments_partial",
    "Props.C91_grid_partial",
    "Props.C91_refuted_column_lost",
    "Props.C91_refuted_thick_piece",
    "Props.C91_page_partial",
    "Props.C91_pieces_partial"
   ],
   "note": "Proved for one table's strokes in any pieces whose order is by position (C91_cells, C91_segments, C91_exact), for whole pages of tables whose strokes hang together (C91_page: any set order, one stroke per inner line; C91_pieces), and for a full grid of any size among other lines in any order (C91_grid). False in general: a second grid below the first loses a column because of coordinates it shares with other strokes (C91_refuted_column_lost); a thicker piece of a line is read first and makes cells merge (C91_refuted_thick_piece)."
  },
  {
   "property": "C92",
   "status": "partial",
   "theorems": [
    "Props.C92_borders_partial",
    "Props.C92_refuted_left_border",
    "Props.C92_refuted_low_rows",
    "Props.C92_grid_partial",
    "Props.C92_refuted_copy",
    "Props.C92_refuted_narrow_column"
   ],
   "note": "Proved for one full r x k grid anywhere across the centre of the page, in the closed model of the layout (Full.lean: nothing about detection is a parameter), with other lines apart from it, in any order, and text in one column outside it and in whole lines inside it; a block may have lines in several cells, side by side and joined by the clean-up from several source blocks in any order (C92_grid_partial); with cells of at least 5pt all borders have the drawn width, except that the left borders of the first column may be missing (C92_borders_partial). False in general: on a page of two columns with a rule the table of the left column appears twice, once empty (C92_refuted_copy); a line in a narrow column whose block is 95% in the wide column is shown in both cells (C92_refuted_narrow_column). A line elsewhere on the page can remove the left border (C92_refuted_left_border); rows lower than 5pt lose their vertical borders (C92_refuted_low_rows). Filled areas may be white or lie behind cells (CellPaint), see C115. Missing: merged cells, several tables, other filled areas."
  },
  {
   "property": "C93",
   "status": "partial",
   "theorems": [
    "Props.C93_font",
    "Props.C93_decoration",
    "Props.C93_refuted_superscript",
    "Props.C93_refuted_two_underlines"
   ],
   "note": "Bold, italic, font, colour, size (C93_font), underline, strike and background (C93_decoration) proved for every span. False for superscript: `docx_run.superscript` is not a property of a python-docx run, so superscript text comes out as normal text (C93_refuted_superscript: for every span). Two lines of different colours under one text give two underline elements (C93_refuted_two_underlines). The semantics of python-docx setters is assumed (Run.lean)."
  },
  {
   "property": "C94",
   "status": "partial",
   "theorems": [
    "Props.C94_links_partial",
    "Props.C94_clickable_partial",
    "Props.C94_refuted_lost_link",
    "Props.C94_refuted_row"
   ],
   "note": "Proved for whole pages (any number of blocks, lines, spans, shapes in any order) when the shapes do not disturb each other (Undisturbed: where a link lies left of an earlier shape, that shape cuts the span cleanly) and the lines of a block begin from top to bottom. Refuted otherwise: an underlined link looked at before a link left of it makes that one lose its target; a tall line right of a small one in the same row is never reached."
  },
  {
   "property": "C95",
   "status": "partial",
   "theorems": [
    "Props.C95_shapes_distributed",
    "Props.C95_refuted_sticks_out"
   ],
   "note": "Distribution proved for all layouts. Refuted: a link area or highlight sticking out of the table by 0.1pt stays with the page although its text goes to the cell, so the link is lost."
  },
  {
   "property": "C96",
   "status": "proved",
   "theorems": [
    "Props.C96_stays_text"
   ],
   "note": "Closed layout model with shapes (Full.lean). 'Covers for the greater part' is more than 70% of the area (the code tests a rounded share of 75%). The page is not in two columns when something across its centre stands beside something that is not; pages where nothing does are laid out in two columns even if they have one (C80_refuted_*). Blocks may have been joined from several source blocks."
  },
  {
   "property": "C97",
   "status": "partial",
   "theorems": [
    "Props.C97_shaded_partial",
    "Props.C97_refuted_white_page",
    "Props.C97_refuted_black"
   ],
   "note": "C97_shaded_partial proves the whole statement for pages with one coloured area whose text lines are stacked (no two lines on it side by side), no loose lines on the page, and something that keeps the page from being laid out in two columns (C80). Missing: several areas, lines of text side by side on the area. Refuted: with a white page background drawn first, the cell becomes white (C97_refuted_white_page); a black area is not recognised and is lost, so white text on it disappears (C97_refuted_black). Blocks may have been joined by the clean-up, with lines in any order."
  },
  {
   "property": "C98",
   "status": "partial",
   "theorems": [
    "Props.C98_blanked_partial",
    "Props.C98_kept_partial",
    "Props.C98_refuted_edge"
   ],
   "note": "Proved for areas at least 2pt from the top and left edge. Refuted for areas starting closer (e.g. a picture filling the page): the numpy slice starts at a negative index and is empty, so nothing is excluded. OpenCV is outside the model."
  },
  {
   "property": "C99",
   "status": "partial",
   "theorems": [
    "Props.C99_any_history_partial",
    "Props.C99_read_once_partial",
    "Props.C99_refuted_twice",
    "Props.C99_refuted_shared"
   ],
   "note": "Proved for every history when no text contains BT, Tm or Td, and for pages read once that share no content stream. Refuted otherwise: `_hide_page_text` replaces these letters also inside texts (OBTAIN becomes OBT 3 TrAIN), which the next read of the stream sees. That PyMuPDF extracts invisible text is assumed."
  },
  {
   "property": "C100",
   "status": "partial",
   "theorems": [
    "Props.C100_fits",
    "Props.C100_refuted_vertical"
   ],
   "note": "Proved for all spans with a character; false for vertical text (shrunk, since the length is compared with the width of the box)."
  },
  {
   "property": "C101",
   "status": "partial",
   "theorems": [
    "Props.C101_place_and_width",
    "Props.C101_height_partial",
    "Props.C101_refuted_stretched"
   ],
   "note": "Place and width proved (exact), height when the area has the proportions of the picture; refuted for stretched pictures."
  },
  {
   "property": "C102",
   "status": "partial",
   "theorems": [
    "Props.C102_drift",
    "Props.C102_refuted_cut"
   ],
   "note": "Bound proved for all pages; that cell contents fit exact rows is refuted (31 rows: 1.3pt cut)."
  },
  {
   "property": "C103",
   "status": "partial",
   "theorems": [
    "Props.C103_heights_partial",
    "Props.C103_refuted_row_dropped"
   ],
   "note": "Proved when in each grid row a cell starts; refuted when a row is dropped (C38)."
  },
  {
   "property": "C104",
   "status": "partial",
   "theorems": [
    "Props.C104_style_drawn",
    "Props.C104_at_side_partial",
    "Props.C104_refuted_ladder"
   ],
   "note": "C104_style_drawn is unconditional (closed page model, all depths) for width/direction of borders and for backgrounds. That the drawn line is at the side of the cell is C104_at_side_partial, for strokes whose positions form no ladder (closeness within the clearance transitive); C104_refuted_ladder: with a ladder of lines the top border of a cell is styled after a line 18pt away."
  },
  {
   "property": "C105",
   "status": "proved",
   "theorems": [
    "Props.C105_border_marks",
    "Props.C105_marked_used"
   ],
   "note": "Exact characterisation of the marks of one candidate (C105_border_marks) and what a marked line becomes (C105_marked_used). The state 'at its turn' is described with the model's byStrokes; that horizontal borders end at vertical ones (needed for the 'only if') is proved for every division (borders_crossed)."
  },
  {
   "property": "C106",
   "status": "partial",
   "theorems": [
    "Spec.C106_ellipse_partial",
    "Spec.C106_refuted_dot",
    "Spec.C106_triangle",
    "Spec.C106_position"
   ],
   "note": "Triangles: C106_triangle (from 0.2pt). Ellipses drawn with four Bezier curves: C106_ellipse_partial from 90pt diameter, since the control polygon covers 89.98% of the box and the limit is 90%; C106_refuted_dot: a filled dot of 3pt is taken for a filled square. C106_position: the computed area does not depend on the position. Other shapes are not treated."
  },
  {
   "property": "C107",
   "status": "partial",
   "theorems": [
    "Props.C107_flow_partial",
    "Props.C107_refuted_order"
   ],
   "note": "Proved as an equivalence for horizontal lines listed row by row and left to right within a row, with exact common top/bottom per row. Refuted for other listing orders: the gap is measured between the outer edges when the right line is listed first."
  },
  {
   "property": "C108",
   "status": "partial",
   "theorems": [
    "Props.C108_styled_partial",
    "Props.C108_table_partial",
    "Props.C108_converts_partial"
   ],
   "note": "From the extracted page to the document tree, with nothing about tables assumed: Whole.lean chains the clean-up of Pipe.lean, the closed layout model of Full.lean and rendering. Proved for every page with one full grid and horizontal text above, below and in it (GridPage), including blocks that are joined side by side by the clean-up and split again over cells, and redundant blanks stripped. Missing: merged cells, several tables on a page, floating pictures, filled areas other than white ones and those behind cells; the condition that a cleaned-up block nearly in a cell is in it is stated on the cleaned-up page. What fails without these restrictions is shown by the refutations of C92."
  },
  {
   "property": "C109",
   "status": "partial",
   "theorems": [
    "Props.C109_lines_kept",
    "Props.C109_refuted_hairline"
   ],
   "note": "Proved for every page of such drawings: the shapes are, up to order, the visible lines and links (C109_lines_kept). Partial because of C109_refuted_hairline: lines of width 0, which the PDF format defines as the thinnest visible line, and lines thinner than the rounding of boxes are dropped. Joined lines (polylines) are the subject of C55."
  },
  {
   "property": "C110",
   "status": "partial",
   "theorems": [
    "Props.C110_painted_partial",
    "Props.C110_painted_converts_partial",
    "Props.C110_table_partial",
    "Props.C110_converts_partial"
   ],
   "note": "From drawing commands to the document: Draw.lean adds paths, their grouping and the clean-up of shapes to Whole.lean. The page is described by its drawing commands (Straight, asDrawn) and the text conditions of C108; C110_painted_* allow filled rectangles behind cells, and other drawings of C112 that leave such a page. Missing: as for C108, and grids drawn with thin filled rectangles or joined lines."
  },
  {
   "property": "C111",
   "status": "partial",
   "theorems": [
    "Props.C111_drawn_partial",
    "Props.C111_text_partial",
    "Props.C111_converts_partial",
    "Props.C111_painted_partial"
   ],
   "note": "From raw blocks and shapes (C111_text, C111_converts) or drawing commands and links (C111_drawn) to the body of the document. Missing: vertical text, lines side by side, images, and pages on which nothing lies beside anything that crosses the centre (see NotTwoColumns: on those the code may build a two-column layout table)."
  },
  {
   "property": "C112",
   "status": "proved",
   "theorems": [
    "Props.C112_shapes_kept",
    "Props.C112_centre_lines"
   ],
   "note": "C112_shapes_kept from drawing commands to the cleaned shapes (drawings of lines and rectangles, filled or not); C112_centre_lines for any shapes with boxes in the 0.1pt grid."
  },
  {
   "property": "C113",
   "status": "proved",
   "theorems": [
    "Props.C113_nothing_invented",
    "Props.C113_exceptions"
   ],
   "note": "Over the closed model Draw.convertDoc (drawings, clean-up, nested tables, paragraphs, sections), without any condition on drawings or layout; the blocks' boxes are real and nested (RawOK). Not claimed here: that nothing is lost or doubled (C84, C85, and their refutations)."
  },
  {
   "property": "C114",
   "status": "partial",
   "theorems": [
    "Props.C114_shaded_partial",
    "Props.C114_converts_partial",
    "Props.C114_painted_partial"
   ],
   "note": "Composition of C97 with clean-up, rendering and sections (Whole.convert), and with C112 (Draw.convertDoc). The colour of the cell is in C97 (cell.info) and its writing in C87. Partial: one area, one column, conditions on other drawings (see the refutations of C97 for what happens otherwise)."
  },
  {
   "property": "C115",
   "status": "partial",
   "theorems": [
    "Props.C115_colours_partial",
    "Props.C115_refuted_no_text"
   ],
   "note": "In the closed layout model, for the pages of C92: a cell on a coloured area with text on it has the colour of the area, and no cell has the colour of an area that is not behind it (C115_colours_partial). An area may lie behind several cells, with or without the border lines. False for cells without text (C115_refuted_no_text): an area without text on it is never taken for a background. Missing: as for C92; colours in the docx (rendering of a given colour is C104/C29)."
  },
  {
   "property": "C116",
   "status": "partial",
   "theorems": [
    "Props.C116_decorations_partial",
    "Props.C116_rendered_partial",
    "Props.C116_refuted_neighbour",
    "Props.C116_refuted_white"
   ],
   "note": "Spec: Spec/Format.lean (areaOf, Under, markAt, marksOver, lineDecorated), hypotheses Fine/AllDefinite/OneBlock there. Model: Styl.blocksFormat (Format.lean), Run.format (Run.lean). C116_decorations_partial is the layout level, C116_rendered_partial the docx runs. Missing: shapes that disturb each other, white or half-covering areas (refuted: C116_refuted_neighbour, C116_refuted_white), lines over two blocks (C29_refuted_two_blocks), vertical text."
  },
  {
   "property": "C117",
   "status": "partial",
   "theorems": [
    "Props.C117_decorations_partial",
    "Props.C117_runs_partial",
    "Props.C117_converts_partial"
   ],
   "note": "The composition of clean-up, table detection, re-splitting, text styling and rendering, with every step computed (model Deco, Styled.lean), proved under the conditions of C111 (one column of text, drawings that are no table, page not laid out in two columns) and of C116 (areas that do not disturb each other); white areas must lie behind a line of text. C117_runs_partial gives the run properties written to the docx. Missing: pages with tables; the cases refuted for C116 and C94. Link areas with exactly the same box have the same address in the model; spans have no font there."
  },
  {
   "property": "C118",
   "status": "proved",
   "theorems": [
    "Props.C118_same_text"
   ],
   "note": "Proved for every document whose extracted blocks have real boxes nested as a PDF delivers them (RawOK, as in C85). Compares Deco.convert (styles computed) with Whole.convert (any styles, e.g. none). C108_styled_partial transfers C108 to documents with styled text."
  },
  {
   "property": "C119",
   "status": "proved",
   "theorems": [
    "Props.C119_not_borders",
    "Props.C119_layout",
    "Props.C119_drawn"
   ],
   "note": "Proved for the model from extracted page to styled runs (`Deco.convert`); boxes of drawings in tenths (as `Element.update_bbox` stores them) and sound extracted text (RawOK) are assumed. The direction of the text is existential in the document theorem and exact in `C119_layout`; that borders and backgrounds decorate nothing is stated for one layout (`C119_not_borders`)."
  },
  {
   "property": "C120",
   "status": "partial",
   "theorems": [
    "Props.C120_same_content",
    "Props.C120_sections",
    "Props.C120_table_partial",
    "Props.C120_text_partial",
    "Props.C120_exceptions",
    "Props.C120_nothing_invented",
    "Props.C120_decorations_drawn"
   ],
   "note": "Proved for every document of Pose.convert: contents, sections, exceptions, nothing invented, decorations drawn. The transfers of C108 and C111 to the computed formats are partial exactly as those theorems are: C120_table_partial covers pages with one ruled table, C120_text_partial pages of text in one column. Positions are not part of this property (see C45, C46, C53, C102)."
  },
  {
   "property": "C121",
   "status": "partial",
   "theorems": [
    "Props.C121_vertical_partial"
   ],
   "note": "Partial: pages of text in one column, one line in each row (as C111). The theorem gives the bottoms of paragraphs; the rows of a paragraph are evenly spaced in the docx, so rows between the first and the last may be off when the page spaces them unevenly (see C53). Heights are those of exact line spacing."
  },
  {
   "property": "C122",
   "status": "partial",
   "theorems": [
    "Props.C122_horizontal_partial",
    "Props.C122_refuted_justified",
    "Props.C122_refuted_centred",
    "Props.C122_refuted_last_row",
    "Props.C122_refuted_first_line"
   ],
   "note": "Partial: pages of text in one column, one line in each row. Proved for single lines and for paragraphs flush left, flush right, hanging with a ragged right edge, and flush on neither side (by tabs, or centred on the page). False (C122_refuted_*) for a first line indent, justified paragraphs with any first line indent, paragraphs centred off the middle of the page, and a right-aligned paragraph whose last of three or more rows ends elsewhere."
  },
  {
   "property": "C123",
   "status": "partial",
   "theorems": [
    "Props.C123_one_page_partial",
    "Props.C123_refuted_bottom"
   ],
   "note": "Partial: pages of text in one column as in C111, with one line in each row and exact line spacing. Proved: if below each of the n lines at least (0.15 n + 0.05)/(1 - page_margin_factor_bottom) points are left, the paragraphs end above the bottom margin. Refuted without that room: text reaching the end of the page can overflow by rounding. Word's own layout (fonts higher than the exact row height are clipped, not moved) is outside the model."
  },
  {
   "property": "C124",
   "status": "partial",
   "theorems": [
    "Props.C124_two_columns_partial",
    "Props.C124_refuted_narrow_reach",
    "Props.C124_formatted_partial",
    "Props.C124_document_partial",
    "Props.C124_converts_partial",
    "Props.C124_styled_partial"
   ],
   "note": "Proved for the layout step (C124_two_columns_partial: pageStage, lattice, stream, assignment, parsing of cells) and from the extracted page to the document (C124_document_partial, C124_styled_partial with styled text, C124_formatted_partial with styled text and formats, C124_converts_partial: no errors). Missing: drawings other than links, headings between the columns. Refuted in general by C124_refuted_narrow_reach (a block that reaches at most a twentieth of its width into one column: its lines there are shown in both)."
  },
  {
   "property": "C125",
   "status": "partial",
   "theorems": [
    "Props.C125_turned_partial"
   ],
   "note": "C125_turned_partial (Spec/Turned, Props/Turned): the formatted layout (Pose.layout) of any text blocks whose lines run upwards, in any box, and of the turned ones either both raise the same error or agree in alignment, start of the first row, right indent, tab stops, space before/after, line spacing, lines and line breaks of every paragraph. Missing because false of the code: the first line indent has the opposite sign (Refuted: C52_refuted_vertical; here proved to be exactly the negative) and tabs are never written for vertical text (C54_refuted_vertical). Layouts with tables are not covered; the blocks are those after parsing (parsing itself is not symmetric)."
  },
  {
   "property": "C126",
   "status": "partial",
   "theorems": [
    "Props.C126_line_breaks_partial"
   ],
   "note": "C126_line_breaks_partial (Spec/LineBreaks, Props/LineBreaks): for the converted document (Pose.convert) and every page of text in one column, one line in each row (TextPage, as C121 and C122). Missing: several lines in a row, tables, vertical text."
  },
  {
   "property": "C127",
   "status": "partial",
   "theorems": [
    "Props.C127_table_places_partial"
   ],
   "note": "Proved end to end on Pose.convert for pages with one drawn grid and one column of text around it (the class of C108), cells at least 5pt wide and high. Missing: a table less than 0.7pt below the top of the working area (C53_refuted_gaps_and_overlaps), several tables, pictures."
  },
  {
   "property": "C128",
   "status": "partial",
   "theorems": [
    "Props.C128_around_table_partial"
   ],
   "note": "Proved end to end on Pose.convert for the pages of C127 (not asking where the table is). Same exceptions as C122 (justified paragraphs with a first line indent, off-centre centred ones, ...)."
  },
  {
   "property": "C129",
   "status": "partial",
   "theorems": [
    "Props.C129_cell_places_partial"
   ],
   "note": "Proved end to end on Pose.convert for the pages of C127, if the lines in the cells do not reach over the side borders. Positions are relative to the area inside the cell's borders as the code finds them; a first column without left border (C92_refuted_left_border) is measured from the grid line. The paragraphs of a cell are those of its tree (no blank paragraphs)."
  },
  {
   "property": "C130",
   "status": "partial",
   "theorems": [
    "Props.C130_same_tables",
    "Props.C130_any_table",
    "Props.C130_table_columns_partial"
   ],
   "note": "C130_any_table is for all pages: tables are written where they were found, with the widths, borders and backgrounds found. C130_table_columns_partial (found as drawn): pages as in C127 (one drawn grid, nothing merged, horizontal text in one column around it); the left borders of the first column may be missing (C92_refuted_left_border); colours of borders and row heights are left out here."
  },
  {
   "property": "C131",
   "status": "partial",
   "theorems": [
    "Props.C131_cell_colours_partial"
   ],
   "note": "Partial: pages as in C127; areas without text on them are not claimed to be kept (false: C115_refuted_no_text)."
  },
  {
   "property": "C132",
   "status": "proved",
   "theorems": [
    "Props.C132_nested_tables"
   ],
   "note": "Relative to the layout found by the parser (C92, C108, C113 and C119 say what that is); colours of borders and row heights are left out; that a word processor starts a table at the indent, and the contents of a cell at its left border, is assumed."
  },
  {
   "property": "C133",
   "status": "proved",
   "theorems": [
    "Props.C133_style_drawn"
   ],
   "note": "Colours of borders are left out. Where the lines and areas are relative to the cell is in C104, for the layout."
  },
  {
   "property": "C134",
   "status": "proved",
   "theorems": [
    "Props.C134_space_nonneg"
   ],
   "note": "That a spacing is written as such by python-docx is assumed; distances are rounded to a tenth of a point, as in the code."
  }
 ]
}