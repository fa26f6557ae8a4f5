{
 "claims": [
  {
   "property": "C01",
   "status": "proved",
   "theorems": [
    "Xls.Unit.c01_getValue16",
    "Xls.Unit.c01_getValue32",
    "Xls.Unit.c01_append_then_get16",
    "Xls.Unit.c01_append_then_get32",
    "Xls.Unit.c01_append_then_read64",
    "Xls.Unit.c01_patch_then_get16",
    "Xls.Unit.c01_patch_then_get32"
   ],
   "note": "appends, patches and getters of the record buffer"
  },
  {
   "property": "C02",
   "status": "proved",
   "theorems": [
    "Xls.Unit.c02_appends",
    "Xls.Unit.c02_record_appends",
    "Xls.Unit.c02_limit_is_real"
   ],
   "note": "total below 2^29 bytes (the size field's width); the limit itself is proved real"
  },
  {
   "property": "C03",
   "status": "partial",
   "theorems": [
    "Xls.Unit.c03_setValueAt8",
    "Xls.Unit.c03_setValueAt16",
    "Xls.Unit.c03_setValueAt32",
    "Xls.Unit.c03_patch8",
    "Xls.Unit.c03_patch16_fails",
    "Xls.Unit.c03_patch32_fails",
    "Xls.Unit.c03_patch16_partial",
    "Xls.Unit.c03_patch32_partial",
    "Xls.Unit.c03_array_patch_past_end"
   ],
   "note": "false for patches straddling the end of a record (negations proved) and for SetArrayAt past the end; everything else proved"
  },
  {
   "property": "C04",
   "status": "proved",
   "theorems": [
    "Xls.Unit.c04_string_size",
    "Xls.Unit.c04_len2_roundtrip",
    "Xls.Unit.c04_len1_roundtrip",
    "Xls.Unit.c04_nolen_roundtrip",
    "Xls.Unit.c04_compression",
    "Xls.Unit.c04_len1_too_long",
    "Xls.Unit.c04_len2_too_long"
   ],
   "note": "for strings shorter than the count field allows; negation proved for every longer string"
  },
  {
   "property": "C05",
   "status": "proved",
   "theorems": [
    "Xls.Sst.c05_sst_reads_back"
   ],
   "note": ""
  },
  {
   "property": "C06",
   "status": "proved",
   "theorems": [
    "Xls.Sst.c06_table",
    "Xls.Sst.c06_label_reads_back"
   ],
   "note": "Cell creation, replacement on any number of sheets; object addresses are distinct among live objects."
  },
  {
   "property": "C07",
   "status": "proved",
   "theorems": [
    "Xls.Save.c07_continued",
    "Xls.Save.c07_two_records_merged"
   ],
   "note": "for every unit that is one record (all but comment drawings, formulas with text results and drawings, which are several); c07_two_records_merged shows what happens to larger units of several records"
  },
  {
   "property": "C08",
   "status": "proved",
   "theorems": [
    "Xls.Ole.c08_terminates",
    "Xls.Ole.c08_minimal",
    "Xls.Ole.c08_slots"
   ],
   "note": "termination for every size, sufficiency and minimality of the counts"
  },
  {
   "property": "C09",
   "status": "proved",
   "theorems": [
    "Xls.Ole.c09_file_size",
    "Xls.Ole.c09_unaligned"
   ],
   "note": "for three streams of any content below 2 GB, as every saved workbook has; c09_unaligned shows what happens for other numbers of streams"
  },
  {
   "property": "C10",
   "status": "proved",
   "theorems": [
    "Xls.Ole.c10_streams_read_back",
    "Xls.Ole.c10_workbook",
    "Xls.Ole.c10_few_streams_fail",
    "Xls.Ole.c10_many_streams_lost"
   ],
   "note": "for three streams in directory order (every saved workbook, c10_workbook); for any other number of streams the container is proved unreadable or incomplete"
  },
  {
   "property": "C11",
   "status": "proved",
   "theorems": [
    "Xls.Ole.c11_one_owner"
   ],
   "note": "any number of root streams"
  },
  {
   "property": "C12",
   "status": "proved",
   "theorems": [
    "Xls.Ole.c12_reachable",
    "Xls.Ole.c12_lookup",
    "Xls.Ole.c12_descending_lost"
   ],
   "note": "any number of root streams with distinct names; lookup when added in directory order; c12_descending_lost shows the order is needed"
  },
  {
   "property": "C13",
   "status": "proved",
   "theorems": [
    "Xls.Ole.c13_padding"
   ],
   "note": "every stream"
  },
  {
   "property": "C14",
   "status": "proved",
   "theorems": [
    "Xls.Cells.c14_last_write_wins",
    "Xls.Cells.c14_frame"
   ],
   "note": ""
  },
  {
   "property": "C15",
   "status": "proved",
   "theorems": [
    "Xls.Cells.c15_row_major"
   ],
   "note": ""
  },
  {
   "property": "C16",
   "status": "partial",
   "theorems": [
    "Xls.Cells.c16_bounding_box",
    "Xls.Cells.c16_empty_sheet"
   ],
   "note": "Proved for every sheet in which a cell or comment was written; for an empty sheet the claim fails (c16_empty_sheet)."
  },
  {
   "property": "C17",
   "status": "partial",
   "theorems": [
    "Xls.Rows.c17_cells_once_partial",
    "Xls.Rows.c17_without_heights",
    "Xls.Rows.c17_stalled_runs_past_end"
   ],
   "note": "Proved in full for sheets without row heights, and for all sheets in which no 16-row group stalls; otherwise proved to run past the end of the cell list."
  },
  {
   "property": "C18",
   "status": "partial",
   "theorems": [
    "Xls.Rows.c18_rows_announced_partial",
    "Xls.Rows.c18_lone_cell_unannounced"
   ],
   "note": "Proved unless a 16-row group leaves exactly one cell; in that case proved false."
  },
  {
   "property": "C19",
   "status": "partial",
   "theorems": [
    "Xls.Rows.c19_single_block_partial",
    "Xls.Rows.c19_wrong_sizes",
    "Xls.Rows.c19_later_offsets_wrong",
    "Xls.Sheet.c19_in_stream_partial",
    "Xls.Sheet.c19_row_range",
    "Xls.Whole.c19_sizes_partial",
    "Xls.Whole.c19_long_texts"
   ],
   "note": "Proved for sheets of one row block (inside the whole saved sheet: c19_in_stream_partial); for every sheet with more, all later offsets are proved wrong. For texts of more than 255 characters the announced size is two bytes short, so the offset is already wrong in a sheet of one row block (c19_long_texts)."
  },
  {
   "property": "C20",
   "status": "proved",
   "theorems": [
    "Xls.Sheet.c20_merged"
   ],
   "note": "within the saved sheet, for any number of ranges with row and column numbers below 65536"
  },
  {
   "property": "C21",
   "status": "partial",
   "theorems": [
    "Xls.Sheet.c21_sections",
    "Xls.Sheet.c21_terminates_partial",
    "Xls.Sheet.c21_terminates_without_heights",
    "Xls.Sheet.c21_stalled_runs_past_end"
   ],
   "note": "section order for every sheet that can be pulled to the end, and return to the initial state; termination is false when the row-block walk stalls (c21_stalled_runs_past_end), proved under the exact no-stall condition and always without row heights"
  },
  {
   "property": "C22",
   "status": "partial",
   "theorems": [
    "Xls.Save.c22_wrong_position",
    "Xls.Save.c22_positions_partial",
    "Xls.Save.c22_many_sheets",
    "Xls.Save.c22_many_rows"
   ],
   "note": "false: c22_positions_partial gives the written position exactly (correct iff no CONTINUE header was left out); negations for 1371 or more sheets and for a sheet of more than 32832 rows before another sheet, with a concrete workbook (c22_wrong_position)"
  },
  {
   "property": "C23",
   "status": "partial",
   "theorems": [
    "Xls.Num.c23_signed",
    "Xls.Num.c23_unsigned_partial",
    "Xls.Num.c23_unsigned_negative",
    "Xls.Num.c23_double",
    "Xls.Num.c23_value_unique",
    "Xls.Num.c23_others",
    "Xls.Num.c23_sizes"
   ],
   "note": "Signed integers, unsigned integers below 0xE0000000 and all doubles are proved; c23_unsigned_negative proves that every unsigned integer from 0xE0000000 on reads back as a negative number."
  },
  {
   "property": "C24",
   "status": "partial",
   "theorems": [
    "Xls.Formula.c24_record_partial",
    "Xls.Formula.c24_array_record_partial",
    "Xls.Formula.c24_parse_partial",
    "Xls.Formula.c24_operators",
    "Xls.Formula.c24_mixed_swapped",
    "Xls.Formula.c24_mixed_swapped_area",
    "Xls.Formula.c24_mixed_fails",
    "Xls.Formula.c24_six_args",
    "Xls.Formula.c24_fails",
    "Xls.Formula.c24_default_class",
    "Xls.Formula.c24_long_text"
   ],
   "note": "Proved for every expression within the format limits without mixed addressing modes and without CUMPRINC/CUMIPMT (bytes and FORMULA/ARRAY record). Refuted otherwise: mixed references read back with row and column exchanged, six-argument functions are dropped, CELL_DEFAULT references are written as operators, texts over 255 characters never read back."
  },
  {
   "property": "C25",
   "status": "partial",
   "theorems": [
    "Xls.Formula.c25_stack",
    "Xls.Formula.c25_stack_array",
    "Xls.Formula.c25_subtree",
    "Xls.Formula.c25_leaf_partial",
    "Xls.Formula.c25_operators",
    "Xls.Formula.c25_text",
    "Xls.Formula.c25_other_sheet",
    "Xls.Formula.c25_fails"
   ],
   "note": "Proved for token-string formulas and for one-node formulas without text or other-sheet reference; refuted for every formula with an operator or a call with arguments, for texts (except plain ones of 4 characters), for references to other sheets and for array formulas."
  },
  {
   "property": "C26",
   "status": "partial",
   "theorems": [
    "Xls.Formula.c26_corrupt",
    "Xls.Formula.c26_call_lost",
    "Xls.Formula.c26_undefined",
    "Xls.Formula.c26_too_many",
    "Xls.Formula.c26_one_value_partial",
    "Xls.Formula.c26_fails"
   ],
   "note": "Holds for permitted counts (except CUMPRINC/CUMIPMT) and for one argument; every other unaccepted count below 32 is proved to give a formula that does not parse, 32 or more undefined behaviour, and over 127 for any-count functions a formula that does not parse."
  },
  {
   "property": "C27",
   "status": "proved",
   "theorems": [
    "Xls.Formula.c27_decodes",
    "Xls.Formula.c27_distinct",
    "Xls.Formula.c27_reserved",
    "Xls.Formula.c27_record",
    "Xls.Formula.c27_recalculated",
    "Xls.Formula.c27_volatile",
    "Xls.Formula.c27_expression"
   ],
   "note": ""
  },
  {
   "property": "C28",
   "status": "partial",
   "theorems": [
    "Xls.Xf.c28_xf_partial",
    "Xls.Xf.c28_no_diagonals",
    "Xls.Xf.c28_diagonal_lost",
    "Xls.Xf.c28_isolated"
   ],
   "note": "Proved for every history of calls on a new cell format, all fields of the record (c28_xf_partial, c28_no_diagonals, c28_isolated), except the diagonal border, which the library accepts and never writes (c28_diagonal_lost)."
  },
  {
   "property": "C29",
   "status": "partial",
   "theorems": [
    "Xls.Styles.c29_cells_partial",
    "Xls.Styles.c29_isolated_partial",
    "Xls.Styles.c29_revived_format",
    "Xls.Styles.c29_changed_format",
    "Xls.Styles.c29_adopted_format"
   ],
   "note": "Proved for every history in which no format or font is shared after being adopted and then changed, or revived after its last user left (Fine); c29_revived_format, c29_changed_format and c29_adopted_format prove that outside those histories formatting one cell changes others."
  },
  {
   "property": "C30",
   "status": "proved",
   "theorems": [
    "Xls.Font.c30_font",
    "Xls.Font.c30_record",
    "Xls.Font.c30_defaults",
    "Xls.Font.c30_long_name"
   ],
   "note": "Every history of calls on a new font; names shorter than 256 characters (c30_long_name shows longer ones are not read back). Also the record and the default fonts."
  },
  {
   "property": "C31",
   "status": "proved",
   "theorems": [
    "Xls.Palette.c31_palette",
    "Xls.Palette.c31_own_slot",
    "Xls.Palette.c31_record"
   ],
   "note": "Every sequence of palette calls."
  },
  {
   "property": "C32",
   "status": "proved",
   "theorems": [
    "Xls.Hpsf.c32_read_back",
    "Xls.Hpsf.c32_file",
    "Xls.Hpsf.c32_declared_utf16"
   ],
   "note": "Strings are read as the counted bytes they are; c32_declared_utf16 shows that a reader that honours the declared code page 1200 (16-bit characters) cannot read them."
  },
  {
   "property": "C33",
   "status": "partial",
   "theorems": [
    "Xls.Hpsf.c33_short_partial",
    "Xls.Hpsf.c33_overflow",
    "Xls.Hpsf.c33_one_call"
   ],
   "note": "False: c33_overflow shows undefined behaviour exactly when more than 4096 bytes are needed, c33_one_call that one long title is enough; c33_short_partial is the part that holds."
  },
  {
   "property": "C34",
   "status": "partial",
   "theorems": [
    "Xls.Store.c34_kept_partial"
   ],
   "note": "c34_kept_partial: for every run that ends, bytes stay in order, records to patch keep their objects, and the destructor releases each once, provided the slot vector does not grow while a CONTINUE record is made (Calm); saved_conditions shows the other hypotheses hold for every Saveable workbook. The proviso is necessary: c54_dangling."
  },
  {
   "property": "C35",
   "status": "partial",
   "theorems": [
    "Xls.Sheet.c35_columns",
    "Xls.Sheet.c35_rows_partial"
   ],
   "note": "columns: proved; rows: last setting wins and reaches the file when the row is above or at the last cell row (c35_rows_partial); settings below the last cell are never written"
  },
  {
   "property": "C36",
   "status": "partial",
   "theorems": [
    "Xls.Note.c36_group",
    "Xls.Note.c36_largest_id",
    "Xls.Note.c36_count_partial",
    "Xls.Note.c36_count_replaced",
    "Xls.Note.c36_drawing",
    "Xls.Note.c36_text"
   ],
   "note": "Holds for every sheet: the drawing of any number of comments up to 65535 is read back element by element with exact nested lengths, one shape per comment plus one for the group, and the text records announce what is written; the workbook's drawing group describes exactly the counts it is given. Missing: those counts are one per call of note(), so replacing a comment makes the group announce too many shapes (c36_count_replaced)."
  },
  {
   "property": "C37",
   "status": "partial",
   "theorems": [
    "Xls.Note.c37_within_sheet",
    "Xls.Note.c37_across_sheets_partial",
    "Xls.Note.c37_thousand_collide",
    "Xls.Note.c37_counter_grows",
    "Xls.Note.c37_second_save_collides",
    "Xls.Note.c37_not_unique"
   ],
   "note": "Unique within a sheet always; unique across sheets for a first save with at most 999 comments per sheet. False beyond: 1001 comments collide with the next sheet (c37_not_unique), and a second save of the same workbook shifts the identifiers (c37_counter_grows, c37_second_save_collides)."
  },
  {
   "property": "C38",
   "status": "proved",
   "theorems": [
    "Xls.NumFmt.c38_predefined",
    "Xls.NumFmt.c38_unnamed",
    "Xls.NumFmt.c38_user",
    "Xls.NumFmt.c38_limit"
   ],
   "note": "All predefined formats; any number of user formats up to 65372 (c38_limit shows the limit is real)."
  },
  {
   "property": "C39",
   "status": "partial",
   "theorems": [
    "Xls.Ole.c39_open_failure",
    "Xls.Ole.c39_reported_iff",
    "Xls.Ole.c39_data_failure_partial",
    "Xls.Ole.c39_late_failure_unreported"
   ],
   "note": "false: failures after the stream data are not reported (c39_late_failure_unreported); c39_reported_iff gives the exact condition"
  },
  {
   "property": "C40",
   "status": "proved",
   "theorems": [
    "Xls.Hpsf.c40_routing",
    "Xls.Hpsf.c40_kinds"
   ],
   "note": ""
  },
  {
   "property": "C41",
   "status": "proved",
   "theorems": [
    "Xls.Ole.c41_tokens",
    "Xls.Ole.c41_roundtrip",
    "Xls.Ole.c41_bare",
    "Xls.Ole.c41_nul_splits"
   ],
   "note": "with slash and NUL as separators; c41_nul_splits records that NUL separates, too"
  },
  {
   "property": "C42",
   "status": "partial",
   "theorems": [
    "Xls.Range.c42_sheet_partial",
    "Xls.Range.c42_range_partial",
    "Xls.Range.c42_endless"
   ],
   "note": "c42_sheet_partial and c42_range_partial: every program within the conditions of C29 (formats not changed once used, nor given to cells again after all their cells gave them up; enough room for fonts and formats), rectangles of any size and place that do not end at 2^32-1. c42_endless: a rectangle that ends at 2^32-1 never ends, whatever is done."
  },
  {
   "property": "C43",
   "status": "partial",
   "theorems": [
    "Xls.Save.c43_ends_partial",
    "Xls.Save.c43_open_partial",
    "Xls.Save.c43_file_partial",
    "Xls.Save.c43_stream"
   ],
   "note": "record structure for every dump that ends; that it ends, and that a reader which follows the sheet table gets every sheet, under limits whose negations are C21 and C22"
  },
  {
   "property": "C44",
   "status": "partial",
   "theorems": [
    "Xls.Book.c44_created",
    "Xls.Book.c44_index_wraps",
    "Xls.Save.c44_sheets_partial",
    "Xls.Save.c44_long_name_lost"
   ],
   "note": "names of 256 characters or more are lost (c44_long_name_lost); creation order by induction over all call sequences"
  },
  {
   "property": "C45",
   "status": "proved",
   "theorems": [
    "Xls.Sheet.c45_links",
    "Xls.Sheet.c45_call"
   ],
   "note": "each link's texts together below 32000 characters"
  },
  {
   "property": "C46",
   "status": "proved",
   "theorems": [
    "Xls.Sheet.c46_validations"
   ],
   "note": "when the announced condition size is right (see C25) and the record shorter than 65536 bytes"
  },
  {
   "property": "C47",
   "status": "proved",
   "theorems": [
    "Xls.Note.c47_notes",
    "Xls.Note.c47_call"
   ],
   "note": "Row, column, author and object number from the NOTE records; text from the object with that number (c36_text); the call keeps author and text within the stated limits."
  },
  {
   "property": "C48",
   "status": "proved",
   "theorems": [
    "Xls.Book.c48_one_active",
    "Xls.Sheet.c48_flags"
   ],
   "note": "up to 65536 sheets; c44_index_wraps shows what happens afterwards"
  },
  {
   "property": "C49",
   "status": "partial",
   "theorems": [
    "Xls.Formula.c49_texts_lost",
    "Xls.Formula.c49_numbers_lost",
    "Xls.Formula.c49_data_among_tokens",
    "Xls.Formula.c49_numbers_token"
   ],
   "note": "The property is false: proved that neither text nor number arrays are ever read back, and that the data placed among the tokens makes the formula unparsable."
  },
  {
   "property": "C50",
   "status": "partial",
   "theorems": [
    "Xls.Palette.c50_named_partial",
    "Xls.Palette.c50_tan"
   ],
   "note": "Proved for 55 of the 56 names in any history; false for CLR_TAN (c50_tan)."
  },
  {
   "property": "C51",
   "status": "partial",
   "theorems": [
    "Xls.NumFmt.c51_documented_partial",
    "Xls.NumFmt.c51_swapped"
   ],
   "note": "Proved for 32 of the 36 names; c51_swapped proves that FMT_CURRENCY5 to FMT_CURRENCY8 have the currency sign exactly where the documentation has none."
  },
  {
   "property": "C52",
   "status": "proved",
   "theorems": [
    "Xls.Styles.c52_numbers"
   ],
   "note": "Both numberings, for every history."
  },
  {
   "property": "C53",
   "status": "partial",
   "theorems": [
    "Xls.Range.c53_box_partial",
    "Xls.Range.c53_background"
   ],
   "note": "c53_box_partial: borders on exactly the outline, pattern, everything else kept. False for the two colours (c53_background): the second colour becomes the foreground and the background stays as it was, for every box."
  },
  {
   "property": "C54",
   "status": "partial",
   "theorems": [
    "Xls.Store.c54_few_partial",
    "Xls.Store.c54_hyperlinks",
    "Xls.Store.c54_dangling"
   ],
   "note": "False: c54_hyperlinks gives, for every saveable workbook whose records fit the estimate, hyperlinks with which saving reads freed memory (CONTINUE creation keeps a pointer across a growth of the vector). c54_dangling: exactly when; c54_few_partial: holds when hyperlinks+validations+2 per sheet+CONTINUE records are at most 995."
  },
  {
   "property": "C55",
   "status": "partial",
   "theorems": [
    "Xls.Whole.c55_open_partial",
    "Xls.Whole.c55_file_partial",
    "Xls.Whole.c55_plain",
    "Xls.Whole.c55_found_partial",
    "Xls.Whole.c55_cells_partial",
    "Xls.Whole.c55_lost"
   ],
   "note": "Proved for every history of writes and every workbook whose save completes, down to the compound file (c55_file_partial), and with nothing assumed but the program for workbooks with plain settings (c55_plain). Missing: texts too long for one record and unsigned integers from 0xE0000000, which are provably lost (c55_lost); formulas outside C24 or too large for one record; workbooks with records above 8224 bytes for the reader that follows the sheet table (C22)."
  },
  {
   "property": "C56",
   "status": "partial",
   "theorems": [
    "Xls.Text.c56_ascii",
    "Xls.Text.c56_utf8_partial",
    "Xls.Text.c56_wide_partial",
    "Xls.Text.c56_bytes_lost",
    "Xls.Text.c56_sign_extended",
    "Xls.Text.c56_beyond",
    "Xls.Text.c56_direct"
   ],
   "note": "ASCII texts in every build, texts of the basic plane with iconv or as wide strings. Refuted otherwise: c56_bytes_lost (bytes from 0x80 without iconv), c56_sign_extended, c56_beyond (characters from 0x10000 on). What iconv does is an assumption (Spec.IconvBytes, Spec.IconvWide)."
  },
  {
   "property": "C57",
   "status": "partial",
   "theorems": [
    "Xls.Look.c57_plain",
    "Xls.Look.c57_cells_partial",
    "Xls.Look.c57_file_partial"
   ],
   "note": "Proved for every program within the conditions of C29 and C55 (c57_cells_partial, c57_file_partial), and with nothing assumed but the program for workbooks with plain settings (c57_plain). Missing: programs outside the conditions of C29, for which it is false (c29_revived_format, c29_changed_format, c29_adopted_format), and values and records outside those of C55 (c55_lost, C22)."
  },
  {
   "property": "C58",
   "status": "partial",
   "theorems": [
    "Xls.Links.c58_table_partial",
    "Xls.Links.c58_cells_partial",
    "Xls.Links.c58_file_partial",
    "Xls.Links.c58_plain",
    "Xls.Links.c58_ref",
    "Xls.Links.c58_area_partial",
    "Xls.Links.c58_corner_ignored"
   ],
   "note": "Proved for every saved workbook with sheet names below 256 characters: the numbering (c58_table_partial), every surviving formula down to the compound file (c58_cells_partial, c58_file_partial), and with nothing assumed but the program for plain workbooks (c58_plain). False for an area whose second cell is on another sheet (c58_corner_ignored). Missing: formulas outside C24, cells of another workbook."
  },
  {
   "property": "C59",
   "status": "partial",
   "theorems": [
    "Xls.Page.c59_plain",
    "Xls.Page.c59_page_partial",
    "Xls.Page.c59_default_rows_lost",
    "Xls.Page.c59_open_partial"
   ],
   "note": "Proved for all programs within the limits of the file format (c59_page_partial, c59_open_partial; c59_plain assumes nothing but the program). False for default rows asked to be hidden and default heights from 3277 points up (c59_default_rows_lost)."
  },
  {
   "property": "C60",
   "status": "partial",
   "theorems": [
    "Xls.Page.c60_rows_partial",
    "Xls.Page.c60_open_partial",
    "Xls.Page.c60_plain",
    "Xls.Page.c60_default_ignored"
   ],
   "note": "An equivalence: the rows read back are the ones asked for exactly if no height is 264, none is below the last cell and no cell is alone after 16 rows; what is found in any case is proved too. Conditions otherwise as C55/C59 (at most 32832 rows with cells, row formats below 4096)."
  },
  {
   "property": "C61",
   "status": "partial",
   "theorems": [
    "Xls.Prog.c61_plain",
    "Xls.Prog.c61_row_replaced",
    "Xls.Prog.c61_open_partial"
   ],
   "note": "Proved for all programs that keep the conditions of C57 and C59 and do not replace the size of a row that has a format; for those the claim is false (c61_row_replaced)."
  },
  {
   "property": "C62",
   "status": "partial",
   "theorems": [
    "Xls.Prog.c62_file_partial"
   ],
   "note": "Proved for all programs within the stated limits that keep the conditions of C61; nothing else is assumed."
  },
  {
   "property": "C63",
   "status": "partial",
   "theorems": [
    "Xls.Formula.c63_calls_partial",
    "Xls.Formula.c63_refused",
    "Xls.Formula.c63_refuses_count",
    "Xls.Formula.c63_refuses_fixed",
    "Xls.Formula.c63_takes",
    "Xls.Formula.c63_same",
    "Xls.Formula.c63_other_sheet",
    "Xls.Whole.c63_open_partial",
    "Xls.Whole.c63_plain"
   ],
   "note": "Proved for all sequences of calls within the limits of the format and without mixed references and array constants; those are false (C24, C49), and so is the case of a formula made for one sheet and put on another (c63_other_sheet)."
  },
  {
   "property": "C64",
   "status": "partial",
   "theorems": [
    "Xls.Ask.c64_format_partial",
    "Xls.Ask.c64_colours",
    "Xls.Ask.c64_colour_cut",
    "Xls.Ask.c64_diagonals",
    "Xls.Ask.c64_get_format",
    "Xls.Ask.c64_font",
    "Xls.Ask.c64_font_name",
    "Xls.Ask.c64_font_name_empty",
    "Xls.Ask.c64_int_of_double",
    "Xls.Ask.c64_number",
    "Xls.Ask.c64_signed",
    "Xls.Ask.c64_unsigned"
   ],
   "note": "Proved for all calls and numbers except where it is false: a colour index from 128 on (the record has seven bits), diagonals (never written), GetFormat on a format that is not predefined (answers General), GetInt of a double outside 32 bits (undefined) and xlsFontGetName with size 0 (writes outside the buffer); each exception is a theorem."
  },
  {
   "property": "C65",
   "status": "partial",
   "theorems": [
    "Xls.Desk.c65_stream_partial",
    "Xls.Desk.c65_file_partial",
    "Xls.Desk.c65_window_lost",
    "Xls.Desk.c65_shapes_numbered",
    "Xls.Desk.c65_saved_iff"
   ],
   "note": "proved for programs within the conditions of C61/C62; false for window coordinates above 1638 points (c65_window_lost), for the used range of an empty sheet (c16_empty_sheet) and for programs whose row blocks stall, which cannot be saved (c65_saved_iff gives the exact condition)"
  },
  {
   "property": "C66",
   "status": "partial",
   "theorems": [
    "Xls.Again.c66_saves_partial",
    "Xls.Again.c66_no_trace",
    "Xls.Again.c66_shapes_renumbered",
    "Xls.Again.c66_largest_exceeded",
    "Xls.Again.c66_file_partial"
   ],
   "note": "proved for histories whose saves are within the conditions of C65; false for the numbers of comment shapes, which go on counting from save to save (c66_shapes_renumbered) and exceed the largest number that the file announces (c66_largest_exceeded)"
  },
  {
   "property": "C67",
   "status": "partial",
   "theorems": [
    "Xls.Rows.c67_trailers_partial",
    "Xls.Rows.c67_shifted"
   ],
   "note": "the distance to the first ROW record is always right; the offsets are one per cell, and lead to the rows (counted from the first ROW record) exactly if each row of the block has one cell and all cells are of one size; counted from the second ROW record, as the format says, they always miss the first cell by 20 bytes (c67_shifted)"
  },
  {
   "property": "C68",
   "status": "partial",
   "theorems": [
    "Xls.Area.c68_range",
    "Xls.Area.c68_stream_partial",
    "Xls.Area.c68_file_partial"
   ],
   "note": "c68_range is the full claim for one range call after any program; c68_stream_partial and c68_file_partial are proved for programs within the conditions of C65 and false where C65 is"
  },
  {
   "property": "C69",
   "status": "partial",
   "theorems": [
    "Xls.Desk.c69_boxes_partial",
    "Xls.Desk.c69_size",
    "Xls.Desk.c69_on_sheet",
    "Xls.Desk.c69_box_off_sheet"
   ],
   "note": "colour and place proved for every program within the limits of C65; that the box lies on the sheet is false for comments in the last columns or rows (c69_box_off_sheet), exact condition in c69_on_sheet"
  },
  {
   "property": "C70",
   "status": "partial",
   "theorems": [
    "Xls.Live.c70_stream_partial",
    "Xls.Live.c70_file_partial",
    "Xls.Live.c70_array_unreadable"
   ],
   "note": "Formula objects that change after they are given away, on the whole program of C68, to stream and file. Not in the theorem: objects given to another sheet than they were made for (c63_other_sheet shows the difference) and array constants, for which the claim is false (c70_array_unreadable); limits of C68."
  },
  {
   "property": "C71",
   "status": "partial",
   "theorems": [
    "Xls.Life.c71_index_only",
    "Xls.Life.c71_outdated_index",
    "Xls.Life.c71_life_partial",
    "Xls.Life.c71_no_trace"
   ],
   "note": "Calls of all kinds, document properties and saves in any order, to complete files. Limits of C70 at each save; array constants and formulas of other sheets excluded as in C70; properties must fit into 4096 bytes (C33). Two claims are false: the time of the last save is always the time at which the workbook was made (Readable), and earlier saves leave a trace in INDEX records when a formula in a saved cell is changed (c71_outdated_index; c71_index_only: nowhere else)."
  },
  {
   "property": "C72",
   "status": "partial",
   "theorems": [
    "Xls.Bridge.c72_free_partial",
    "Xls.Bridge.c72_program_partial",
    "Xls.Bridge.c72_null",
    "Xls.Bridge.c72_cut"
   ],
   "note": "proved for all programs within the limits of C71, and within those of C77 for formats and fonts that are shared and changed at will (c72_free_partial), whose texts can be stored; NULL where a text is needed and missing zeros are undefined (c72_null), zeros in texts cut them (c72_cut)"
  },
  {
   "property": "C73",
   "status": "partial",
   "theorems": [
    "Xls.Mirror.c73_cell_call",
    "Xls.Mirror.c73_cell_font",
    "Xls.Mirror.c73_format_setter",
    "Xls.Mirror.c73_font_setter",
    "Xls.Mirror.c73_font_shown_elsewhere",
    "Xls.Mirror.c73_stream_partial",
    "Xls.Mirror.c73_file_partial"
   ],
   "note": "The answers of all formats, fonts and cells and the records agree after any program that hands over existing objects. Partial: at most 65536 formats and 65535 fonts (beyond, numbers repeat), the getters of diagonals and user formats, limits of Modest, 1000 sheets, 4 GB; that a font call on a cell shows in no other cell is false (c73_font_shown_elsewhere)."
  },
  {
   "property": "C74",
   "status": "partial",
   "theorems": [
    "Xls.Tree.c74_kept_partial",
    "Xls.Tree.c74_once_partial",
    "Xls.Tree.c74_saved_partial",
    "Xls.Tree.c74_parsed_partial",
    "Xls.Tree.c74_shared",
    "Xls.Tree.c74_twice",
    "Xls.Tree.c74_read_after",
    "Xls.Tree.c74_part_of_itself",
    "Xls.Tree.c74_too_many"
   ],
   "note": "Proved for every program that gives each expression away at most once (each part destroyed exactly once, saves write what the cells hold) and for every program that gives nothing away and shares at will. The full claim fails: shared or repeated parts are destroyed twice, are read after destruction, cyclic expressions never end, the 65535th argument never returns (theorems)."
  },
  {
   "property": "C75",
   "status": "partial",
   "theorems": [
    "Xls.Mem.c75_safe",
    "Xls.Mem.c75_released",
    "Xls.Mem.c75_current",
    "Xls.Mem.c75_replaced",
    "Xls.Mem.c75_same",
    "Xls.Mem.c75_dangling",
    "Xls.Mem.c75_font_number"
   ],
   "note": "Proved for all programs that keep to the rule; the library does not enforce it: a cell pointer kept beyond a write to its place dangles (c75_dangling), a font number above 4 reads past a list (c75_font_number). Expression objects are C74, records of a file being written C34."
  },
  {
   "property": "C76",
   "status": "partial",
   "theorems": [
    "Xls.Dir.c76_codes",
    "Xls.Dir.c76_entries",
    "Xls.Dir.c76_children",
    "Xls.Dir.c76_find_partial",
    "Xls.Dir.c76_directory_unsaved",
    "Xls.Dir.c76_streams",
    "Xls.Dir.c76_files",
    "Xls.Dir.c76_search_wrong"
   ],
   "note": "Full statement proved for return codes, entries, links and streams. It fails in three places, each with a theorem: making a path again that has something below it is undefined (c76_codes), a file system with a directory in it cannot be written (c76_directory_unsaved), and GetNode answers for some paths that do not exist (c76_search_wrong, so c76_find_partial has only one direction for longer paths)."
  },
  {
   "property": "C77",
   "status": "partial",
   "theorems": [
    "Xls.Free.c77_wider",
    "Xls.Free.c77_life_partial",
    "Xls.Free.c77_no_trace",
    "Xls.Free.c77_index_only"
   ],
   "note": "proved for calls that hand over existing objects, including setters on the formats of the workbook itself (then the built-in styles are what those setters made of them); missing: more than 65535 fonts or 65536 formats at a save, the limits of Modest, 1000 sheets, names of 255 characters, 2 GB, and properties that do not fit (C33). False: earlier saves leave a trace in INDEX records when a formula in a saved cell is changed (c71_outdated_index; c77_index_only: nowhere else)"
  },
  {
   "property": "C78",
   "status": "partial",
   "theorems": [
    "Xls.Touch.c78_range",
    "Xls.Touch.c78_range_font",
    "Xls.Touch.c78_font_shared"
   ],
   "note": "Proved for all programs that hand over existing objects. Left out: cellcolor and block functions when there are more than 65536 formats afterwards. That a font function leaves cells outside alone is not true (c78_font_shared)."
  },
  {
   "property": "C79",
   "status": "partial",
   "theorems": [
    "Xls.Xf.c79_mode_partial",
    "Xls.Xf.c79_flags_stay",
    "Xls.Xf.c79_mode_first",
    "Xls.Xf.c79_back"
   ],
   "note": "proved for all histories, except for the diagonal border (C28) and the flags, which stay as they are when the mode changes: a font set before SetCellMode(false) is marked as one the style does not have (c79_flags_stay); they are right if the mode is chosen before the setters (c79_mode_first)"
  },
  {
   "property": "C80",
   "status": "partial",
   "theorems": [
    "Xls.Xf.c80_equal",
    "Xls.Xf.c80_tell_partial",
    "Xls.Xf.c80_by_number",
    "Xls.Xf.c80_copy_tells",
    "Xls.Xf.c80_copy_equal",
    "Xls.Xf.c80_copy",
    "Xls.Xf.c80_separate"
   ],
   "note": "equality is sound for all formats; complete for formats not numbered by SetFormatIndex (c80_by_number); copies always answer alike apart from IsCell, and are equal exactly if the original is a cell format that was given its font and user format as one (c80_copy_equal)"
  },
  {
   "property": "C81",
   "status": "partial",
   "theorems": [
    "Xls.Formula.c81_values_partial",
    "Xls.Formula.c81_released",
    "Xls.Formula.c81_copy"
   ],
   "note": "Full claim with copies is false: c81_copy shows for every reachable state that a copied result with a text cannot be destroyed after its original. Programs without copies are covered without bounds."
  },
  {
   "property": "C82",
   "status": "partial",
   "theorems": [
    "Xls.Formula.c82_kind_partial",
    "Xls.Formula.c82_wrong",
    "Xls.Formula.c82_everyday"
   ],
   "note": "False for six functions (c82_wrong: T, N, ISPMT, HEX2DEC, OCT2DEC, BIN2DEC store a result of a kind they never yield). All others are proved."
  },
  {
   "property": "C83",
   "status": "partial",
   "theorems": [
    "Xls.NumFmt.c83_shows_partial",
    "Xls.NumFmt.c83_renamed",
    "Xls.NumFmt.c83_renumber"
   ],
   "note": "c83_shows_partial: everything but SetIndex and more than 65372 formats; c83_renumber proves that SetIndex on a used format breaks the claim in every such state."
  },
  {
   "property": "C84",
   "status": "proved",
   "theorems": [
    "Xls.Styles.c84_usage",
    "Xls.Styles.c84_unused",
    "Xls.Styles.c84_font_wrong"
   ],
   "note": "Calls of MarkUsed/UnMarkUsed by the program itself are not included; c84_font_wrong shows that the usage of fonts is not exact."
  }
 ]
}