# Formal model of xlslib in Lean 4

The model lives in `lean/Verif/`. It is a hand translation of the C++ text in `/repo/xlslib/src` (paths below are
relative to that directory). Nothing was compiled or run; each definition cites the file and lines it was read from.

## Layout

Per area, `Model.lean` transcribes code (with citations), `Spec.lean` holds the independent specification (readers,
abstract maps, predicates) written from the file-format rules or the documented API, `Lemmas.lean` and other files
hold helper lemmas, `Props.lean` holds the property theorems with `example`s showing that the hypotheses are met.

| area | code | subject |
|------|------|---------|
| `Base`, `Unit` | xlslib/unit.cpp, unit.h | the growing byte buffer, its patches, strings |
| `Biff` | xlslib/record.cpp, record.h | records; reader of a record stream |
| `Ole` | oledoc/oledoc.cpp, olefs.cpp, oleprop.cpp, binfile.cpp, common/stringtok.h | the compound file |
| `Cells` | xlslib/sheetrec.cpp, cell.h | the cell set of a sheet |
| `Sst` | xlslib/globalrec.cpp, label.cpp | the shared string table and label numbers |
| `Num` | xlslib/number.cpp | RK and double encodings |
| `Rows` | xlslib/sheetrec.cpp, row.cpp, index.cpp | row blocks, ROW, DBCELL, INDEX, DIMENSION |
| `Sheet` | xlslib/sheetrec.cpp, merged.cpp, colinfo.cpp, HPSF-free records | the sheet serialiser, links, validations, windows |
| `Note` | xlslib/note.cpp | comments and their drawings |
| `Formula` | xlslib/formula*.cpp | expressions, tokens, formulas built call by call, sizes, cached results |
| `Xf`, `Font`, `NumFmt`, `Palette` | xlslib/extformat.cpp, font.cpp, format.cpp, colors.cpp | the attribute records |
| `Styles`, `Range` | xlslib/globalrec.cpp, cell.cpp, range.cpp | sharing of attributes, ranges |
| `Globals`, `Book`, `Save` | xlslib/globalrec.cpp, workbook.cpp | the workbook stream and the saved file |
| `Store` | xlslib/datast.cpp, workbook.cpp | the record store on the level of memory |
| `Hpsf` | xlslib/HPSF.cpp, summinfo.cpp, docsumminfo.cpp | document properties |
| `Whole` | all of the above | from the calls to the file and back |
| `Text` | globalrec.cpp, common/xlsys.h | text conversions into 16-bit units, `iconv` as a parameter |
| `Look` | `Whole`, `Styles` and `NumFmt` together | content and look of each cell in the saved file |
| `Links` | formula.cpp, formula_expr.cpp, datast.cpp | references to other sheets in the saved file |
| `Page` | sheetrec.cpp, sheetrec.h, note.cpp, colinfo.cpp, merged.cpp, recdef.cpp | what belongs to a sheet besides its cells, in the saved file |
| `Prog` | sheetrec.cpp 1304-1361, row.cpp, colinfo.cpp, with `Look`, `Page` and `Hpsf` | programs that do everything at once, from the calls to the file |
| `Ask` | extformat.cpp, font.cpp, number.h, cbridge.cpp 436-444 | getters |
| `Desk` | workbook.cpp, globalrec.cpp, recdef.cpp, sheetrec.cpp | whole workbooks: window, active sheet, colours, styles, drawings, used ranges, determined by the program |
| `Again` | workbook.cpp, globalrec.cpp, sheetrec.cpp | calls and saves in any order: what a save leaves behind and what the next one writes |
| `Area` | range.cpp, sheetrec.cpp, workbook.cpp | operations on ranges between all other calls on a workbook, to the saved file |
| `Live` | formula.cpp, formula_cell.cpp, sheetrec.cpp | formula objects held by pointer in cells and validations, changing until the save |
| `Life` | workbook.cpp, summinfo.cpp, docsumminfo.cpp with all above | calls of all kinds, document properties and saves in any order |
| `Bridge` | cbridge.cpp | the C interface: C strings, pointers to cells, all functions that change something |
| `Mirror` | cell.cpp, extformat.cpp, font.cpp, globalrec.cpp, sheetrec.cpp | getters compared with the saved records, for programs outside the conditions of C29 and C61 |
| `Tree` | formula_expr.cpp, formula_cell.cpp 52-216, sheetrec.cpp 126-135, 899-985, cell.h 136-149 | expression objects in memory: who destroys them, when, and what is read from them |
| `Mem` | workbook.cpp 87-253, globalrec.cpp 84-295, 645-730, 920-946, sheetrec.cpp 126-221, 789-1061, 1291-1433, cell.cpp, extformat.cpp 384-424, 584-710, row.cpp, label.cpp 75-94, HPSF.cpp 148-174 | all other objects of a workbook in memory: who points at what, when each is deleted |
| `Dir` | olefs.cpp 71-191, 307-321 | the file system of the compound file with nested directories, any paths and refused calls |
| `Free` | as `Area`, `Live`, `Life` and `Mirror` (no new code) | the whole life of a workbook whose formats and fonts are shared, changed in use and taken again at will |
| `Touch` | as `Area` and `Mirror` (no new code) | what an operation on a range does to the answers of all objects |

## Conventions

* A byte is `UInt8`; a file, a record or a stream is `List UInt8`.
* C++ integers: unbounded `Nat`/`Int` inside computations; truncation (`% 2^16`, `% 2^32`) is explicit wherever the
  code narrows a value or stores it in a field.
* Undefined behaviour (out-of-range access, NULL dereference, iterating past `end()`) is a distinct outcome (`none`
  or an explicit constructor), never a default value.
* Mutation through pointers becomes a function that returns the new state; where identity matters (formats, fonts,
  labels, record slots) objects have explicit addresses or positions.
* `XL_ASSERT` is compiled out of release builds; a failing assertion is treated as a finding.
* Loops without an evident bound (the sizing fix point, the pull-style serialisers) run on fuel or are inductive
  relations; separate theorems show that enough fuel exists, or exactly when it does not.
* Floating point is modelled as 64-bit patterns; conversion of a 32-bit integer to a double is an explicit function,
  checked against a decoding to exact dyadic values.

## Properties

Statements are in `properties.jsonl`. For each: what is modelled, how it is proved, the theorems, and what is
missing or refuted. A theorem whose name ends in `_partial` proves less than the full property; a theorem that
refutes the property gives the failing program.

### C01 Integer fields are little-endian and read back exactly

*Model and proof.* The byte writers `AddValue16/32/64`, the patching setters and the getters of the unit buffer; a reader of little-endian numbers. Round trip for every value, buffer and position.

*Theorems* (proved). `Xls.Unit`: `c01_getValue16`, `c01_getValue32`, `c01_append_then_get16`, `c01_append_then_get32`, `c01_append_then_read64`, `c01_patch_then_get16`, `c01_patch_then_get32`.

*Extent.* appends, patches and getters of the record buffer

### C02 Appending to a record never loses or reorders bytes

*Model and proof.* The unit buffer with its inline block, heap block, capacity and growth rule. Refinement of every sequence of appends to list concatenation, by induction over the calls; the width of the size field bounds the total.

*Theorems* (proved). `Xls.Unit`: `c02_appends`, `c02_record_appends`, `c02_limit_is_real`.

*Extent.* total below 2^29 bytes (the size field's width); the limit itself is proved real

### C03 Patching a record is bounds-checked and local

*Model and proof.* The in-place setters with their error codes. Decision logic for every buffer, position and value, and a frame property: no other byte changes. Negations where the check lets a patch straddle the end.

*Theorems* (partial). `Xls.Unit`: `c03_setValueAt8`, `c03_setValueAt16`, `c03_setValueAt32`, `c03_patch8`, `c03_patch16_fails`, `c03_patch32_fails`, `c03_patch16_partial`, `c03_patch32_partial`, `c03_array_patch_past_end`.

*Extent.* false for patches straddling the end of a record (negations proved) and for SetArrayAt past the end; everything else proved

### C04 Strings in records decode to what the user passed

*Model and proof.* The string encoders with their length prefixes and the size predictor; a decoder written from the format. Round trip and predicted size; negation beyond the prefix's range.

*Theorems* (proved). `Xls.Unit`: `c04_string_size`, `c04_len2_roundtrip`, `c04_len1_roundtrip`, `c04_nolen_roundtrip`, `c04_compression`, `c04_len1_too_long`, `c04_len2_too_long`.

*Extent.* for strings shorter than the count field allows; negation proved for every longer string

### C05 The shared string table survives being split over CONTINUE records

*Model and proof.* The shared-string-table builder with its back-patched chunk lengths; a reader that follows strings over CONTINUE boundaries. Induction over the list of strings with an invariant on the open chunk.

*Theorems* (proved). `Xls.Sst`: `c05_sst_reads_back`.

### C06 A long label's string-table index names its own string

*Model and proof.* The label registry keyed by object identity. Refinement over all histories of creating, replacing and deleting labels on any number of sheets.

*Theorems* (proved). `Xls.Sst`: `c06_table`, `c06_label_reads_back`.

*Extent.* Cell creation, replacement on any number of sheets; object addresses are distinct among live objects.

### C07 Oversized records are continued without loss

*Model and proof.* The CONTINUE state of `workbook::DumpData`. Induction over the chunks of a unit: a reader that joins records gets the payload back.

*Theorems* (proved). `Xls.Save`: `c07_continued`, `c07_two_records_merged`.

*Extent.* for every unit that is one record (all but comment drawings, formulas with text results and drawings, which are several); c07_two_records_merged shows what happens to larger units of several records

### C08 Sector-table sizing terminates and is exactly sufficient

*Model and proof.* The fix-point loop that sizes the allocation tables, with fuel shown sufficient. Monotone iteration below the least solution.

*Theorems* (proved). `Xls.Ole`: `c08_terminates`, `c08_minimal`, `c08_slots`.

*Extent.* termination for every size, sufficiency and minimality of the counts

### C09 The container file has the size and alignment its header promises

*Model and proof.* Header, allocation tables, directory and data writers. A layout equation for every region; the file length is the sum.

*Theorems* (proved). `Xls.Ole`: `c09_file_size`, `c09_unaligned`.

*Extent.* for three streams of any content below 2 GB, as every saved workbook has; c09_unaligned shows what happens for other numbers of streams

### C10 A conforming compound-file reader gets every stream back

*Model and proof.* A compound-file reader written from the format, run on the writer's bytes. Chains and streams are recovered for every content.

*Theorems* (proved). `Xls.Ole`: `c10_streams_read_back`, `c10_workbook`, `c10_few_streams_fail`, `c10_many_streams_lost`.

*Extent.* for three streams in directory order (every saved workbook, c10_workbook); for any other number of streams the container is proved unreadable or incomplete

### C11 Each sector of the file has exactly one owner

*Model and proof.* The sector map. Every sector belongs to exactly one owner, from the layout equations.

*Theorems* (proved). `Xls.Ole`: `c11_one_owner`.

*Extent.* any number of root streams

### C12 Every stream is reachable in the directory tree

*Model and proof.* Insertion into the directory tree with sibling links; a reader's in-order traversal and its lookup. Induction over insertions.

*Theorems* (proved). `Xls.Ole`: `c12_reachable`, `c12_lookup`, `c12_descending_lost`.

*Extent.* any number of root streams with distinct names; lookup when added in directory order; c12_descending_lost shows the order is needed

### C13 Streams are padded to whole sectors and the small-stream cutoff

*Model and proof.* Padding of streams to whole sectors and to the 4096-byte minimum. Arithmetic for every length.

*Theorems* (proved). `Xls.Ole`: `c13_padding`.

*Extent.* every stream

### C14 Last write to a cell wins

*Model and proof.* The ordered cell set with hinted insertion and the sort before saving. Refinement to a finite map by induction over writes.

*Theorems* (proved). `Xls.Cells`: `c14_last_write_wins`, `c14_frame`.

### C15 Cells are stored and emitted in strict row-major order

*Model and proof.* The same model; the emitted sequence is strictly increasing in (row, column).

*Theorems* (proved). `Xls.Cells`: `c15_row_major`.

### C16 The declared used range is the bounding box of the cells

*Model and proof.* The min/max bookkeeping of every write. Fold invariant.

*Theorems* (partial). `Xls.Cells`: `c16_bounding_box`, `c16_empty_sheet`.

*Extent.* Proved for every sheet in which a cell or comment was written; for an empty sheet the claim fails (c16_empty_sheet).

### C17 Every cell is written exactly once, in order

*Model and proof.* The row-block walk as a transition system. Induction over the cells with an invariant on the current block; negation with the stalling sheet.

*Theorems* (partial). `Xls.Rows`: `c17_cells_once_partial`, `c17_without_heights`, `c17_stalled_runs_past_end`.

*Extent.* Proved in full for sheets without row heights, and for all sheets in which no 16-row group stalls; otherwise proved to run past the end of the cell list.

### C18 Every row that holds cells has its ROW record in the same block

*Model and proof.* The same walk: one ROW record per used row, before the row's cells, with the right first/last column.

*Theorems* (partial). `Xls.Rows`: `c18_rows_announced_partial`, `c18_lone_cell_unannounced`.

*Extent.* Proved unless a 16-row group leaves exactly one cell; in that case proved false.

### C19 The row index points at the row-block trailers

*Model and proof.* The estimate pass and the offsets put in INDEX. Closed forms compared with the real layout; negations for later blocks and for long texts.

*Theorems* (partial). `Xls.Rows`: `c19_single_block_partial`, `c19_wrong_sizes`, `c19_later_offsets_wrong`; `Xls.Sheet`: `c19_in_stream_partial`, `c19_row_range`; `Xls.Whole`: `c19_sizes_partial`, `c19_long_texts`.

*Extent.* Proved for sheets of one row block (inside the whole saved sheet: c19_in_stream_partial); for every sheet with more, all later offsets are proved wrong. For texts of more than 255 characters the announced size is two bytes short, so the offset is already wrong in a sheet of one row block (c19_long_texts).

### C20 Merged ranges are all recorded, in bounded records

*Model and proof.* Batching of merged ranges into records. Induction; a reader gets the list of ranges.

*Theorems* (proved). `Xls.Sheet`: `c20_merged`.

*Extent.* within the saved sheet, for any number of ranges with row and column numbers below 65536

### C21 A sheet's records come in the order readers require

*Model and proof.* The sheet serialiser as a state machine. A run lemma per state, composed into the order of records and the return to the initial state.

*Theorems* (partial). `Xls.Sheet`: `c21_sections`, `c21_terminates_partial`, `c21_terminates_without_heights`, `c21_stalled_runs_past_end`.

*Extent.* section order for every sheet that can be pulled to the end, and return to the initial state; termination is false when the row-block walk stalls (c21_stalled_runs_past_end), proved under the exact no-stall condition and always without row heights

### C22 Each sheet's directory entry points at its first record

*Model and proof.* Stream assembly with the position patching of sheet-table entries. Offset invariant with the exact amount by which skipped CONTINUE headers shift it; negations with concrete workbooks.

*Theorems* (partial). `Xls.Save`: `c22_wrong_position`, `c22_positions_partial`, `c22_many_sheets`, `c22_many_rows`.

*Extent.* false: c22_positions_partial gives the written position exactly (correct iff no CONTINUE header was left out); negations for 1371 or more sheets and for a sheet of more than 32832 rows before another sheet, with a concrete workbook (c22_wrong_position)

### C23 Integers written as numbers keep their value

*Model and proof.* Classification of numbers and the RK/float encodings on 64-bit patterns; a decoder to exact dyadic values. Bit-vector arithmetic over the whole domain.

*Theorems* (partial). `Xls.Num`: `c23_signed`, `c23_unsigned_partial`, `c23_unsigned_negative`, `c23_double`, `c23_value_unique`, `c23_others`, `c23_sizes`.

*Extent.* Signed integers, unsigned integers below 0xE0000000 and all doubles are proved; c23_unsigned_negative proves that every unsigned integer from 0xE0000000 on reads back as a negative number.

### C24 Formulas decode to the expression the user built

*Model and proof.* Expression trees and the token writer; a postfix parser written from the format. Structural induction: the parser returns the meaning of the tree.

*Theorems* (partial). `Xls.Formula`: `c24_record_partial`, `c24_array_record_partial`, `c24_parse_partial`, `c24_operators`, `c24_mixed_swapped`, `c24_mixed_swapped_area`, `c24_mixed_fails`, `c24_six_args`, `c24_fails`, `c24_default_class`, `c24_long_text`.

*Extent.* Proved for every expression within the format limits without mixed addressing modes and without CUMPRINC/CUMIPMT (bytes and FORMULA/ARRAY record). Refuted otherwise: mixed references read back with row and column exchanged, six-argument functions are dropped, CELL_DEFAULT references are written as operators, texts over 255 characters never read back.

### C25 Formula size predictions equal the bytes written

*Model and proof.* The size estimator next to the writer. Structural induction; negations where they differ.

*Theorems* (partial). `Xls.Formula`: `c25_stack`, `c25_stack_array`, `c25_subtree`, `c25_leaf_partial`, `c25_operators`, `c25_text`, `c25_other_sheet`, `c25_fails`.

*Extent.* Proved for token-string formulas and for one-node formulas without text or other-sheet reference; refuted for every formula with an operator or a call with arguments, for texts (except plain ones of 4 characters), for references to other sheets and for array formulas.

### C26 Wrong argument counts never produce a corrupt formula

*Model and proof.* The arity masks of all functions. Case analysis over the whole table with an induction over arguments.

*Theorems* (partial). `Xls.Formula`: `c26_corrupt`, `c26_call_lost`, `c26_undefined`, `c26_too_many`, `c26_one_value_partial`, `c26_fails`.

*Extent.* Holds for permitted counts (except CUMPRINC/CUMIPMT) and for one argument; every other unaccepted count below 32 is proved to give a formula that does not parse, 32 or more undefined behaviour, and over 127 for any-count functions a formula that does not parse.

### C27 Cached formula results decode unambiguously

*Model and proof.* The cached-result encodings; a decoder. Case analysis on bit patterns.

*Theorems* (proved). `Xls.Formula`: `c27_decodes`, `c27_distinct`, `c27_reserved`, `c27_record`, `c27_recalculated`, `c27_volatile`, `c27_expression`.

### C28 Cell format records carry exactly the attributes set

*Model and proof.* All setters of a format and the bit-field patches of its record; field extraction written from the format. Induction over histories of calls.

*Theorems* (partial). `Xls.Xf`: `c28_xf_partial`, `c28_no_diagonals`, `c28_diagonal_lost`, `c28_isolated`.

*Extent.* Proved for every history of calls on a new cell format, all fields of the record (c28_xf_partial, c28_no_diagonals, c28_isolated), except the diagonal border, which the library accepts and never writes (c28_diagonal_lost).

### C29 Formatting a cell affects that cell only

*Model and proof.* Fonts, formats and cells with sharing and usage counts (`findXF`, `fontdup`), and copies of fonts and formats that the program makes (`fontDup`, `xfDup`). Simulation by a specification in which every cell has its own look; negations where sharing shows.

*Theorems* (partial). `Xls.Styles`: `c29_cells_partial`, `c29_isolated_partial`, `c29_revived_format`, `c29_changed_format`, `c29_adopted_format`.

*Extent.* Proved for every history in which no format or font is shared after being adopted and then changed, or revived after its last user left (Fine); c29_revived_format, c29_changed_format and c29_adopted_format prove that outside those histories formatting one cell changes others.

### C30 Font attribute switches are independent

*Model and proof.* Font setters, flags and record; a reader. Induction over histories.

*Theorems* (proved). `Xls.Font`: `c30_font`, `c30_record`, `c30_defaults`, `c30_long_name`.

*Extent.* Every history of calls on a new font; names shorter than 256 characters (c30_long_name shows longer ones are not read back). Also the record and the default fonts.

### C31 Custom colours change only their own palette slot

*Model and proof.* Palette calls. Refinement to a map from slot to colour.

*Theorems* (proved). `Xls.Palette`: `c31_palette`, `c31_own_slot`, `c31_record`.

*Extent.* Every sequence of palette calls.

### C32 Document properties read back from the summary streams

*Model and proof.* The property-set writer for both summary streams; a reader. Induction over the list of properties.

*Theorems* (proved). `Xls.Hpsf`: `c32_read_back`, `c32_file`, `c32_declared_utf16`.

*Extent.* Strings are read as the counted bytes they are; c32_declared_utf16 shows that a reader that honours the declared code page 1200 (16-bit characters) cannot read them.

### C33 Oversized document properties are handled safely

*Model and proof.* The same writer's fixed buffer. Exact overflow condition.

*Theorems* (partial). `Xls.Hpsf`: `c33_short_partial`, `c33_overflow`, `c33_one_call`.

*Extent.* False: c33_overflow shows undefined behaviour exactly when more than 4096 bytes are needed, c33_one_call that one long title is enough; c33_short_partial is the part that holds.

### C34 Streaming the records out never frees a record still needed

*Model and proof.* The record store on the level of memory: slots, growth, borrowed pointers, destruction. Invariant over every run.

*Theorems* (partial). `Xls.Store`: `c34_kept_partial`.

*Extent.* c34_kept_partial: for every run that ends, bytes stay in order, records to patch keep their objects, and the destructor releases each once, provided the slot vector does not grow while a CONTINUE record is made (Calm); saved_conditions shows the other hypotheses hold for every Saveable workbook. The proviso is necessary: c54_dangling.

### C35 Column widths and row heights: last setting wins, output ordered

*Model and proof.* Ordered sets of column and row settings. Refinement to a map; the part of the map that reaches the file.

*Theorems* (partial). `Xls.Sheet`: `c35_columns`, `c35_rows_partial`.

*Extent.* columns: proved; rows: last setting wins and reaches the file when the row is above or at the last cell row (c35_rows_partial); settings below the last cell are never written

### C36 Comment drawing records have consistent nested lengths

*Model and proof.* Drawing records of comments; a reader of nested elements. Induction over the comments; arithmetic for the nested lengths.

*Theorems* (partial). `Xls.Note`: `c36_group`, `c36_largest_id`, `c36_count_partial`, `c36_count_replaced`, `c36_drawing`, `c36_text`.

*Extent.* Holds for every sheet: the drawing of any number of comments up to 65535 is read back element by element with exact nested lengths, one shape per comment plus one for the group, and the text records announce what is written; the workbook's drawing group describes exactly the counts it is given. Missing: those counts are one per call of note(), so replacing a comment makes the group announce too many shapes (c36_count_replaced).

### C37 Comment shape identifiers are unique in the workbook

*Model and proof.* Shape identifiers. Arithmetic; negations with witnesses.

*Theorems* (partial). `Xls.Note`: `c37_within_sheet`, `c37_across_sheets_partial`, `c37_thousand_collide`, `c37_counter_grows`, `c37_second_save_collides`, `c37_not_unique`.

*Extent.* Unique within a sheet always; unique across sheets for a first save with at most 999 comments per sheet. False beyond: 1001 comments collide with the next sheet (c37_not_unique), and a second save of the same workbook shifts the identifiers (c37_counter_grows, c37_second_save_collides).

### C38 Number-format codes map one-to-one

*Model and proof.* Registration and numbering of number formats. Induction; table lookup for the predefined ones.

*Theorems* (proved). `Xls.NumFmt`: `c38_predefined`, `c38_unnamed`, `c38_user`, `c38_limit`.

*Extent.* All predefined formats; any number of user formats up to 65372 (c38_limit shows the limit is real).

### C39 Save reports failure if bytes could not be written

*Model and proof.* The output stream with a failure point anywhere. Case analysis over the writer's calls; exact condition for being reported.

*Theorems* (partial). `Xls.Ole`: `c39_open_failure`, `c39_reported_iff`, `c39_data_failure_partial`, `c39_late_failure_unreported`.

*Extent.* false: failures after the stream data are not reported (c39_late_failure_unreported); c39_reported_iff gives the exact condition

### C40 Document properties go to the right stream

*Model and proof.* Routing of property calls to the two streams. Whole-table case analysis.

*Theorems* (proved). `Xls.Hpsf`: `c40_routing`, `c40_kinds`.

### C41 Paths split into their components

*Model and proof.* The tokenizer. Induction over the text.

*Theorems* (proved). `Xls.Ole`: `c41_tokens`, `c41_roundtrip`, `c41_bare`, `c41_nul_splits`.

*Extent.* with slash and NUL as separators; c41_nul_splits records that NUL separates, too

### C42 Range operations touch exactly the rectangle

*Model and proof.* Range loops over the cells of a rectangle, on top of the C29 model. Induction over the rectangle; negation for rectangles that end at 2^32-1.

*Theorems* (partial). `Xls.Range`: `c42_sheet_partial`, `c42_range_partial`, `c42_endless`.

*Extent.* c42_sheet_partial and c42_range_partial: every program within the conditions of C29 (formats not changed once used, nor given to cells again after all their cells gave them up; enough room for fonts and formats), rectangles of any size and place that do not end at 2^32-1. c42_endless: a rectangle that ends at 2^32-1 never ends, whatever is done.

### C43 The workbook stream parses as a sequence of records

*Model and proof.* The whole workbook stream (globals, sheets, CONTINUE). Every dump that ends is a sequence of complete records; the reader that follows the sheet table gets every sheet.

*Theorems* (partial). `Xls.Save`: `c43_ends_partial`, `c43_open_partial`, `c43_file_partial`, `c43_stream`.

*Extent.* record structure for every dump that ends; that it ends, and that a reader which follows the sheet table gets every sheet, under limits whose negations are C21 and C22

### C44 Sheets are numbered in creation order

*Model and proof.* Sheet creation and the sheet table. Induction over creation; the reader gets the names in order.

*Theorems* (partial). `Xls.Book`: `c44_created`, `c44_index_wraps`; `Xls.Save`: `c44_sheets_partial`, `c44_long_name_lost`.

*Extent.* names of 256 characters or more are lost (c44_long_name_lost); creation order by induction over all call sequences

### C45 Hyperlinks read back

*Model and proof.* Hyperlink records; a reader. Round trip per link, inside the saved sheet.

*Theorems* (proved). `Xls.Sheet`: `c45_links`, `c45_call`.

*Extent.* each link's texts together below 32000 characters

### C46 Data validations read back

*Model and proof.* Validation records; a reader. Round trip per validation, inside the saved sheet.

*Theorems* (proved). `Xls.Sheet`: `c46_validations`.

*Extent.* when the announced condition size is right (see C25) and the record shorter than 65536 bytes

### C47 Comments are read back as written

*Model and proof.* NOTE records and texts; a reader that joins the two. Induction over the comments.

*Theorems* (proved). `Xls.Note`: `c47_notes`, `c47_call`.

*Extent.* Row, column, author and object number from the NOTE records; text from the object with that number (c36_text); the call keeps author and text within the stated limits.

### C48 Exactly one sheet is the active one

*Model and proof.* The active-sheet bookkeeping. Invariant over all calls.

*Theorems* (proved). `Xls.Book`: `c48_one_active`; `Xls.Sheet`: `c48_flags`.

*Extent.* up to 65536 sheets; c44_index_wraps shows what happens afterwards

### C49 Array constants in formulas decode to their values

*Model and proof.* Array constants. The reader never gets them back, for every array (negation).

*Theorems* (partial). `Xls.Formula`: `c49_texts_lost`, `c49_numbers_lost`, `c49_data_among_tokens`, `c49_numbers_token`.

*Extent.* The property is false: proved that neither text nor number arrays are ever read back, and that the data placed among the tokens makes the formula unparsable.

### C50 Named colours show as the colour they name

*Model and proof.* Colour names and palette indices. Whole-table case analysis; negation for one name.

*Theorems* (partial). `Xls.Palette`: `c50_named_partial`, `c50_tan`.

*Extent.* Proved for 55 of the 56 names in any history; false for CLR_TAN (c50_tan).

### C51 Predefined number formats show what their documentation says

*Model and proof.* Predefined formats against the documentation in the header. Whole-table case analysis; negation for four names.

*Theorems* (partial). `Xls.NumFmt`: `c51_documented_partial`, `c51_swapped`.

*Extent.* Proved for 32 of the 36 names; c51_swapped proves that FMT_CURRENCY5 to FMT_CURRENCY8 have the currency sign exactly where the documentation has none.

### C52 Font and cell-format numbers point at the right record

*Model and proof.* Numbers given to fonts and formats and their place in the file. Invariant over every program.

*Theorems* (proved). `Xls.Styles`: `c52_numbers`.

*Extent.* Both numberings, for every history.

### C53 A box is drawn around exactly the outline of a range, in the given colours

*Model and proof.* The box operation on ranges. Induction over the rectangle; negation for the colours.

*Theorems* (partial). `Xls.Range`: `c53_box_partial`, `c53_background`.

*Extent.* c53_box_partial: borders on exactly the outline, pattern, everything else kept. False for the two colours (c53_background): the second colour becomes the foreground and the background stays as it was, for every box.

### C54 Saving never reads freed memory, however large the workbook

*Model and proof.* The same memory model as C34: a read through a freed pointer is an outcome of its own. Exact condition and the programs that reach it.

*Theorems* (partial). `Xls.Store`: `c54_few_partial`, `c54_hyperlinks`, `c54_dangling`.

*Extent.* False: c54_hyperlinks gives, for every saveable workbook whose records fit the estimate, hyperlinks with which saving reads freed memory (CONTINUE creation keeps a pointer across a growth of the vector). c54_dangling: exactly when; c54_few_partial: holds when hyperlinks+validations+2 per sheet+CONTINUE records are at most 995.

### C55 Cells of every kind are read back from the saved file

*Model and proof.* All previous models composed: from the calls that write cells, through cell set, string table, row blocks, sheet stream, workbook stream and container, to a reader that opens the file. Simulation over the history of writes.

*Theorems* (partial). `Xls.Whole`: `c55_open_partial`, `c55_file_partial`, `c55_plain`, `c55_found_partial`, `c55_cells_partial`, `c55_lost`.

*Extent.* Proved for every history of writes and every workbook whose save completes, down to the compound file (c55_file_partial), and with nothing assumed but the program for workbooks with plain settings (c55_plain). Missing: texts too long for one record and unsigned integers from 0xE0000000, which are provably lost (c55_lost); formulas outside C24 or too large for one record; workbooks with records above 8224 bytes for the reader that follows the sheet table (C22).

### C56 Texts keep their characters

*Model and proof.* The three text conversions, in both build variants, with `iconv` as a parameter assumed to decode UTF-8 correctly. Induction over the text; negations for bytes from 0x80 (build without `iconv`) and characters beyond 0xFFFF.

*Theorems* (partial). `Xls.Text`: `c56_ascii`, `c56_utf8_partial`, `c56_wide_partial`, `c56_bytes_lost`, `c56_sign_extended`, `c56_beyond`, `c56_direct`.

*Extent.* ASCII texts in every build, texts of the basic plane with iconv or as wide strings. Refuted otherwise: c56_bytes_lost (bytes from 0x80 without iconv), c56_sign_extended, c56_beyond (characters from 0x10000 on). What iconv does is an assumption (Spec.IconvBytes, Spec.IconvWide).

### C57 Cells come out of the saved file with the content and the look they were given

*Model and proof.* The models of C29, C38 and C55 run side by side: a cell that is written marks a format, one that is overwritten gives it up. Invariant over all calls, then the reader of C55 extended by the FONT, FORMAT and XF records.

*Theorems* (partial). `Xls.Look`: `c57_plain`, `c57_cells_partial`, `c57_file_partial`.

*Extent.* Proved for every program within the conditions of C29 and C55 (c57_cells_partial, c57_file_partial), and with nothing assumed but the program for workbooks with plain settings (c57_plain). Missing: programs outside the conditions of C29, for which it is false (c29_revived_format, c29_changed_format, c29_adopted_format), and values and records outside those of C55 (c55_lost, C22).

### C58 References to other sheets lead to the right sheet

*Model and proof.* The workbook stream of C43 and C55 with a reader for SUPBOOK and EXTERNSHEET that joins continuation records; the references of a formula's tree are shown to be those of the expression by structural induction.

*Theorems* (partial). `Xls.Links`: `c58_table_partial`, `c58_cells_partial`, `c58_file_partial`, `c58_plain`, `c58_ref`, `c58_area_partial`, `c58_corner_ignored`.

*Extent.* Proved for every saved workbook with sheet names below 256 characters: the numbering (c58_table_partial), every surviving formula down to the compound file (c58_cells_partial, c58_file_partial), and with nothing assumed but the program for plain workbooks (c58_plain). False for an area whose second cell is on another sheet (c58_corner_ignored). Missing: formulas outside C24, cells of another workbook.

### C59 Everything that belongs to a sheet besides its cells comes out of the saved file as it was asked for

*Model and proof.* `Verif/Page`: a reader of one substream (joining CONTINUE records, then per record type) is a small specification; the calls on a new sheet are a fold, shown by induction over the calls to leave exactly what was last asked for; the sheet layout theorem gives the records; the reader then finds the page, and the file theorems of C43 and C55 carry it to the sheet table. Negation for hidden and very high default rows.

*Theorems* (partial). `Xls.Page`: `c59_plain`, `c59_page_partial`, `c59_default_rows_lost`, `c59_open_partial`.

*Extent.* Proved for all programs within the limits of the file format (c59_page_partial, c59_open_partial; c59_plain assumes nothing but the program). False for default rows asked to be hidden and default heights from 3277 points up (c59_default_rows_lost).

### C60 The saved file has the rows that were asked for: row of every cell, heights and row formats last given

*Model and proof.* a reader of ROW records over the saved substreams; the blocks of C18 are a prefix of the rows needed; equivalence between "as asked" and three conditions on the program, proved from the block lemmas, then lifted through the save as in C59

*Theorems* (partial). `Xls.Page`: `c60_rows_partial`, `c60_open_partial`, `c60_plain`, `c60_default_ignored`.

*Extent.* An equivalence: the rows read back are the ones asked for exactly if no height is 264, none is below the last cell and no cell is alone after 16 rows; what is found in any case is proved too. Conditions otherwise as C55/C59 (at most 32832 rows with cells, row formats below 4096).

### C61 Formats given to columns and rows are found in the saved file

*Model and proof.* `Verif/Prog`: columns and rows that have a format are further users of the style objects of C29, on handles of their own. A simulation relation with an extended specification state carries the invariant of C57 over all calls; the readers of C57, C59 and C60 are then applied to one and the same stream. Negation for rows whose size is replaced.

*Theorems* (partial). `Xls.Prog`: `c61_plain`, `c61_row_replaced`, `c61_open_partial`.

*Extent.* Proved for all programs that keep the conditions of C57 and C59 and do not replace the size of a row that has a format; for those the claim is false (c61_row_replaced).

### C62 A whole program, from the calls to the file and back

*Model and proof.* C61 with nothing assumed but the program, put into the compound file of C10 together with the property streams of C32.

*Theorems* (partial). `Xls.Prog`: `c62_file_partial`.

*Extent.* Proved for all programs within the stated limits that keep the conditions of C61; nothing else is assumed.

### C63 A formula built call by call is the formula asked for

*Model and proof.* `Verif/Formula/Stack*`: the two buffers of `formula_t` as a state, a call as a step; the specification is a stack machine on expressions. Simulation by induction over the calls: the bytes so far make the reader put the trees that mean the operands at hand, or are already unreadable. Carried into the file through C55.

*Theorems* (partial). `Xls.Formula`: `c63_calls_partial`, `c63_refused`, `c63_refuses_count`, `c63_refuses_fixed`, `c63_takes`, `c63_same`, `c63_other_sheet`; `Xls.Whole`: `c63_open_partial`, `c63_plain`.

*Extent.* Proved for all sequences of calls within the limits of the format and without mixed references and array constants; those are false (C24, C49), and so is the case of a formula made for one sheet and put on another (c63_other_sheet).

### C64 Getters answer what the saved file says

*Model and proof.* `Verif/Ask`: the getters as functions of the object states of C28, C30 and C23; the states after any calls are known from the inductions there, the records from the readers there. GetInt is shown equal to the integer part of the exact value of the pattern (inequalities between products of powers of two).

*Theorems* (partial). `Xls.Ask`: `c64_format_partial`, `c64_colours`, `c64_colour_cut`, `c64_diagonals`, `c64_get_format`, `c64_font`, `c64_font_name`, `c64_font_name_empty`, `c64_int_of_double`, `c64_number`, `c64_signed`, `c64_unsigned`.

*Extent.* Proved for all calls and numbers except where it is false: a colour index from 128 on (the record has seven bits), diagonals (never written), GetFormat on a format that is not predefined (answers General), GetInt of a double outside 32 bits (undefined) and xlsFontGetName with size 0 (writes outside the buffer); each exception is a theorem.

### C65 The workbook as a whole: window, active sheet, colours, styles, drawings and used ranges

*Model and proof.* `Verif/Desk`: the program of C61 with the calls on the workbook around it; the state's sheet table, window, palette and used ranges are functions of the calls (induction), the first 21 formats never change, and every input of the save is taken from the state. The globals are read record by record from the layout of C43, DIMENSION from the layout of C59; the drawings through C36. The shape numbers of each sheet are read from its drawing and follow the sheet and the place of the comment. `c65_saved_iff` says exactly which programs can be saved at all: those in which no sheet has a stalled row block.

*Theorems* (partial). `Xls.Desk`: `c65_stream_partial`, `c65_file_partial`, `c65_window_lost`, `c65_shapes_numbered`, `c65_saved_iff`.

*Extent.* proved for programs within the conditions of C61/C62; false for window coordinates above 1638 points (c65_window_lost), for the used range of an empty sheet (c16_empty_sheet) and for programs whose row blocks stall, which cannot be saved (c65_saved_iff gives the exact condition)

### C66 A workbook may be saved any number of times

*Model and proof.* `Verif/Again`: histories of calls and saves; the state is the workbook of C65 and everything in which the `DumpData` functions keep their place as the last save left it. Induction over the history with the invariant that every save leaves all places at the beginning, except the shape counters of the sheets, which go on; `c65`'s core lemma is for any such state. The stream is a function of data and counters (both runs are forced through the canonical layout), so without comments it is the first save's. With comments the claim is false: `c66_shapes_renumbered`, `c66_largest_exceeded`.

*Theorems* (partial). `Xls.Again`: `c66_saves_partial`, `c66_no_trace`, `c66_shapes_renumbered`, `c66_largest_exceeded`, `c66_file_partial`.

*Extent.* proved for histories whose saves are within the conditions of C65; false for the numbers of comment shapes, which go on counting from save to save (c66_shapes_renumbered) and exceed the largest number that the file announces (c66_largest_exceeded)

### C67 Row-block trailers lead to the first cell of each row

*Model and proof.* The records of the row blocks as in C17/C18, a reader of the DBCELL records with positions (Rows/Find); exact condition under which the offsets lead to the rows if counted from the first ROW record, and a proof that counted as the format says they always miss the first cell by 20 bytes.

*Theorems* (partial). `Xls.Rows`: `c67_trailers_partial`, `c67_shifted`.

*Extent.* the distance to the first ROW record is always right; the offsets are one per cell, and lead to the rows (counted from the first ROW record) exactly if each row of the block has one cell and all cells are of one size; counted from the second ROW record, as the format says, they always miss the first cell by 20 bytes (c67_shifted)

### C68 Ranges in whole workbooks

*Model and proof.* `Verif/Area`: the operations of C42 on the whole workbook of C65. Each run of a range operation is shown equal to a run of plain calls (blank cells, calls on cells, adopted formats) that asks for the same, so C65 applies; a congruence for everything C65 says about sheets, window and used ranges. `c68_range` says place by place what a range call asks for, from the program alone.

*Theorems* (partial). `Xls.Area`: `c68_range`, `c68_stream_partial`, `c68_file_partial`.

*Extent.* c68_range is the full claim for one range call after any program; c68_stream_partial and c68_file_partial are proved for programs within the conditions of C65 and false where C65 is

### C69 The boxes of comments have the colours and places that were given

*Model and proof.* A reader of the properties and anchors of shapes with client data (Note/Spec), matched with OBJ and NOTE records (Page/Spec `boxed`); the box of every comment is part of what C59 reads back, so it reaches C61–C68; `Act.box` is a call on a comment. Invariant over the calls: colour and place of each comment in the set are the last ones asked for. `beside` is the closed form of the size loop in `Finalize`. That the box is on the sheet is false near the last columns and rows (`c69_box_off_sheet`), with the exact condition in `c69_on_sheet`.

*Theorems* (partial). `Xls.Desk`: `c69_boxes_partial`, `c69_size`, `c69_on_sheet`, `c69_box_off_sheet`.

*Extent.* colour and place proved for every program within the limits of C65; that the box lies on the sheet is false for comments in the last columns or rows (c69_box_off_sheet), exact condition in c69_on_sheet

### C70 Formula objects mean what has been pushed on them by the time of saving

*Model and proof.* `Verif/Live`: formula objects are a table of stacks beside the workbook of C68; cells and validations hold pointers into it, coded as values that no program of C68 contains, and looked up when the workbook is saved. Looking up commutes with every call of C68 (naturality lemmas for cell sets, styles, ranges), so the saved workbook is that of the C68 program with final contents in place; C63 says what those mean. `Kept` states it from the program alone: `taken` drops refused calls. Array constants are the exception (`c70_array_unreadable`).

*Theorems* (partial). `Xls.Live`: `c70_stream_partial`, `c70_file_partial`, `c70_array_unreadable`.

*Extent.* Formula objects that change after they are given away, on the whole program of C68, to stream and file. Not in the theorem: objects given to another sheet than they were made for (c63_other_sheet shows the difference) and array constants, for which the claim is false (c70_array_unreadable); limits of C68.

### C71 The whole life of a workbook

*Model and proof.* `Verif/Life`: the workbook of C70 with document properties (C32) and what the last save left (C66); events are calls, properties and saves. Induction over the events: between them the formula objects, properties and places are those of the calls so far. At each save the C70 program so far is turned into a C65 program with the same workbook, to which the one-save lemma of C66 applies; C10 and C32 give the file. The times in the file are read back, too: that of the last save is the time at which the workbook was made (disagreement). The sizes of cells that a sheet remembers until a cell is added are part of the state: `c71_no_trace` holds for histories that do not change formulas in saved cells (`Settled`; invariant `Tidy`: remembered sizes are right), `c71_index_only` for all (two saves in lockstep that differ in INDEX records), and `c71_outdated_index` shows that these can be wrong, even after a save that could not open its file.

*Theorems* (partial). `Xls.Life`: `c71_index_only`, `c71_outdated_index`, `c71_life_partial`, `c71_no_trace`.

*Extent.* Calls of all kinds, document properties and saves in any order, to complete files. Limits of C70 at each save; array constants and formulas of other sheets excluded as in C70; properties must fit into 4096 bytes (C33). Two claims are false: the time of the last save is always the time at which the workbook was made (Readable), and earlier saves leave a trace in INDEX records when a formula in a saved cell is changed (c71_outdated_index; c71_index_only: nowhere else).

### C72 A program written against the C interface

*Model and proof.* `Verif/Bridge`: each function of cbridge.cpp as a call with C strings (memory from a pointer on) and places of cells, carried out by looking up the cell, cutting and converting the texts and calling the method (`lower`). `Call.means` says independently what each function is for, with texts as lists of Unicode characters (`Reading`). Induction over the program: cells stay at their places (through every call, range and save) and know their sheet, so every call passes on what it means (cells may have been made by an operation on a range); then C71 applies, and C77 for programs that share and change formats at will (`c72_free_partial`). NULL and missing zeros are undefined (`c72_null`), zeros in texts cut them (`c72_cut`).

*Theorems* (partial). `Xls.Bridge`: `c72_free_partial`, `c72_program_partial`, `c72_null`, `c72_cut`.

*Extent.* proved for all programs within the limits of C71, and within those of C77 for formats and fonts that are shared and changed at will (c72_free_partial), whose texts can be stored; NULL where a text is needed and missing zeros are undefined (c72_null), zeros in texts cut them (c72_cut)

### C73 The getters answer what is saved

*Model and proof.* `Verif/Mirror`: an invariant of the style objects without any condition on sharing or use counts (`Well`: numbers are positions, every value fits its record, every pointer is valid), kept by every call that hands over existing objects (`Sane`, `Able`), by replaced cells, columns and rows; value lemmas say what each call does to the lists of format and font values, whatever the use counts. At the save the record behind each number is read and compared with the getters of C64 (`Mirrors`, `Echoed`); the save itself is that of C65. The effect theorems hold after any such program. A font call may show in other cells (`c73_font_shown_elsewhere`).

*Theorems* (partial). `Xls.Mirror`: `c73_cell_call`, `c73_cell_font`, `c73_format_setter`, `c73_font_setter`, `c73_font_shown_elsewhere`, `c73_stream_partial`, `c73_file_partial`.

*Extent.* The answers of all formats, fonts and cells and the records agree after any program that hands over existing objects. Partial: at most 65536 formats and 65535 fonts (beyond, numbers repeat), the getters of diagonals and user formats, limits of Modest, 1000 sheets, 4 GB; that a font call on a cell shows in no other cell is false (c73_font_shown_elsewhere).

### C74 Expression objects live as long as they are used, and no longer

*Model and proof.* `Verif/Tree`: a heap of expression objects addressed by number, with calls that make them, push arguments, put them into cells (owning or not), write over cells, destroy and save; destroying or reading an object that is gone is `none`, recursion takes stack. The specification says from the calls alone what each object is (`now`), what is part of what (`Within`), and which programs give each object away once (`Good`). An invariant over the calls ties the heap to it: the live part under every object is a tree with no repetition, those destroyed are exactly the parts of what was given up. For programs that give nothing away a rank decreasing from an object to its arguments replaces this. The negations (`c74_shared`, `c74_twice`, `c74_read_after`, `c74_part_of_itself`) hold for all programs with the given sharing.

*Theorems* (partial). `Xls.Tree`: `c74_kept_partial`, `c74_once_partial`, `c74_saved_partial`, `c74_parsed_partial`, `c74_shared`, `c74_twice`, `c74_read_after`, `c74_part_of_itself`, `c74_too_many`.

*Extent.* Proved for every program that gives each expression away at most once (each part destroyed exactly once, saves write what the cells hold) and for every program that gives nothing away and shares at will. The full claim fails: shared or repeated parts are destroyed twice, are read after destruction, cyclic expressions never end, the 65535th argument never returns (theorems).

### C75 Everything a workbook makes is released exactly once, and no pointer to a released object is followed

*Model and proof.* `Verif/Mem`: all other objects of a workbook (sheets, cells, comments, sizes, merged areas, ranges, formulas, validations, links, fonts, formats, styles, sheet entries, properties) in pools with an address each; following or deleting what is gone is `none`. Contents and use counts are left out; calls carry the decisions that depend on them, so the theorems hold for every decision. Invariant over the calls: every list of pointers has exactly the live objects of its kind and sheet, once; every pointer in an object, hint and label list is live; a second invariant ties it to the program: which calls returned what, and that a cell is there until its place is written again. The destructors then delete each object once, in the order of the code, while everything they follow is still there.

*Theorems* (partial). `Xls.Mem`: `c75_safe`, `c75_released`, `c75_current`, `c75_replaced`, `c75_same`, `c75_dangling`, `c75_font_number`.

*Extent.* Proved for all programs that keep to the rule; the library does not enforce it: a cell pointer kept beyond a write to its place dangles (c75_dangling), a font number above 4 reads past a list (c75_font_number). Expression objects are C74, records of a file being written C34.

### C76 The file system inside a compound file behaves like a table of paths

*Model and proof.* `Verif/Dir`: programs of calls on the model of olefs.cpp (`Verif/Ole/Model.lean`) against a table of paths in order of creation. Look-up by path is the observation; one lemma says what a successful `AddNode` does to the view at every path, to the links at every directory and to the set of numbers. Induction over the program keeps the correspondence; the array is sorted by number, hence in table order. Not true, with theorems: making a path again that has something below it is undefined, a file system with a directory cannot be written, and `GetNode` finds nodes for paths that do not exist.

*Theorems* (partial). `Xls.Dir`: `c76_codes`, `c76_entries`, `c76_children`, `c76_find_partial`, `c76_directory_unsaved`, `c76_streams`, `c76_files`, `c76_search_wrong`.

*Extent.* Full statement proved for return codes, entries, links and streams. It fails in three places, each with a theorem: making a path again that has something below it is undefined (c76_codes), a file system with a directory in it cannot be written (c76_directory_unsaved), and GetNode answers for some paths that do not exist (c76_search_wrong, so c76_find_partial has only one direction for longer paths).

### C77 Every save of a workbook's life shows what its objects answer at that moment

*Model and proof.* `Verif/Free`: C71 over the invariant of C73 instead of that of C29. Each operation on a range is replaced by calls on single cells that hand over existing objects (`Steps`, `Pass`), for which C73's simulation holds; what is asked is compared up to what C73 needs (`Like`). The saves are those of C65 and C66 with another claim on the stream (`Desk.save_core`, `Again.save_of`, `Life.save_by`). Setters may be called on the formats that the workbook makes for itself; only that the built-in styles have the formats belonging to them assumes that they are not (`Spares`, `StylesListed`). `c77_wider`: every program of C71 is one of C77. `c77_no_trace` and `c77_index_only` as in C71.

*Theorems* (partial). `Xls.Free`: `c77_wider`, `c77_life_partial`, `c77_no_trace`, `c77_index_only`.

*Extent.* proved for calls that hand over existing objects, including setters on the formats of the workbook itself (then the built-in styles are what those setters made of them); missing: more than 65535 fonts or 65536 formats at a save, the limits of Modest, 1000 sheets, names of 255 characters, 2 GB, and properties that do not fit (C33). False: earlier saves leave a trace in INDEX records when a formula in a saved cell is changed (c71_outdated_index; c77_index_only: nowhere else)

### C78 An operation on a range changes the answers of its cells as its calls say, and of nothing else

*Model and proof.* `Verif/Touch`: the effect of one range operation on the answers of all objects. `told` and `fontTold` say what a setter makes of the answers, without the object; the format of a cell goes through copies (`chain`), and the invariant of C73 (a user format is the one its number says, `XfFits.tied`) makes a copy answer alike. Induction over the places of the rectangle (`Touched`, `FontTouched`): each place is found or made, treated, and nothing else changes; for `cellcolor` and blocks the remembered formats are right for every place with the same mark (`Kept`), given that format numbers do not wrap. Font functions are idempotent on answers, so shared fonts are changed once.

*Theorems* (partial). `Xls.Touch`: `c78_range`, `c78_range_font`, `c78_font_shared`.

*Extent.* Proved for all programs that hand over existing objects. Left out: cellcolor and block functions when there are more than 65536 formats afterwards. That a font function leaves cells outside alone is not true (c78_font_shared).

### C79 A format turned into a style and back keeps its attributes, and its record says which of the two it is

*Model and proof.* `Verif/Xf/Mode.lean`: `SetCellMode` added to the model of one format. Induction over the history with an invariant per attribute, border side and flag (`After`); a setter in style mode is compared with one in cell mode (`run_style`). The flags are not turned with the type (`c79_flags_stay`); they fit it if the mode is chosen first (`c79_mode_first`).

*Theorems* (partial). `Xls.Xf`: `c79_mode_partial`, `c79_flags_stay`, `c79_mode_first`, `c79_back`.

*Extent.* proved for all histories, except for the diagonal border (C28) and the flags, which stay as they are when the mode changes: a font set before SetCellMode(false) is marked as one the style does not have (c79_flags_stay); they are right if the mode is chosen before the setters (c79_mode_first)

### C80 Formats compare equal exactly if nothing tells them apart, and a copy equals its original

*Model and proof.* `Verif/Xf/Same.lean`: `operator==` comparison by comparison (`same`) is shown to be equality of all modelled members (`same_iff`), hence of answers and records; for the converse the flags are determined by the groups asked for (`flags_asks`) and the user format by its number (`format_num`). The copy is computed from the invariants of C79 (`dup_made`), which gives exactly when it equals the original. Separateness: induction over the calls on the list of formats of a workbook.

*Theorems* (partial). `Xls.Xf`: `c80_equal`, `c80_tell_partial`, `c80_by_number`, `c80_copy_tells`, `c80_copy_equal`, `c80_copy`, `c80_separate`.

*Extent.* equality is sound for all formats; complete for formats not numbered by SetFormatIndex (c80_by_number); copies always answer alike apart from IsCell, and are equal exactly if the original is a cell format that was given its font and user format as one (c80_copy_equal)

### C81 Results of formulas own their texts

*Model and proof.* `Verif/Formula/Union.lean`: model each result object with its union, its kind tag and the texts it allocates (a list of texts, deleted ones marked; every wrong read or release is `none`); prove by an ownership invariant that any program without copies refines plain values; show that a copied text cannot be used or released once the original is gone.

*Theorems* (partial). `Xls.Formula`: `c81_values_partial`, `c81_released`, `c81_copy`.

*Extent.* Full claim with copies is false: c81_copy shows for every reachable state that a copied result with a text cannot be destroyed after its original. Programs without copies are covered without bounds.

### C82 Stored results of functions have the kind the function yields

*Model and proof.* `Verif/Formula/Kinds.lean`: the specification lists the worksheet functions with a fixed kind of result by name and number; the whole table is checked against `funcEstimate` in the kernel, and `c27_decodes` carries it to the record for all arguments. The six functions with the wrong kind are shown to have it (`c82_wrong`).

*Theorems* (partial). `Xls.Formula`: `c82_kind_partial`, `c82_wrong`, `c82_everyday`.

*Extent.* False for six functions (c82_wrong: T, N, ISPMT, HEX2DEC, OCT2DEC, BIN2DEC store a result of a kind they never yield). All others are proved.

### C83 Number formats that are copied and changed stay what they were asked to be

*Model and proof.* `Verif/NumFmt/Shop.lean`: model the user formats (number, text) together with the two members of a cell format that refer to them, and all public calls on both; prove by an invariant that without `SetIndex` every program refines a list of texts and a list of what each cell format was assigned; prove that in every reachable state `SetIndex` on a used format loses the link (`c83_renumber`).

*Theorems* (partial). `Xls.NumFmt`: `c83_shows_partial`, `c83_renamed`, `c83_renumber`.

*Extent.* c83_shows_partial: everything but SetIndex and more than 65372 formats; c83_renumber proves that SetIndex on a used format breaks the claim in every such state.

### C84 Usage of a cell format is the number of its cells

*Model and proof.* `Verif/Styles/Tally.lean`: on the model of C29, without its conditions: an invariant over all calls ties each counter to the number of cells that hold the format, through sharing, parting and the removal of equal formats; a witness shows that the counters of fonts do not have the property.

*Theorems* (proved). `Xls.Styles`: `c84_usage`, `c84_unused`, `c84_font_wrong`.

*Extent.* Calls of MarkUsed/UnMarkUsed by the program itself are not included; c84_font_wrong shows that the usage of fonts is not exact.

## Disagreements between code and properties

Each of these is a theorem unless marked "(read)".

* A record patch near the end of the buffer writes past the contents (C03). 
* Strings longer than their prefix allows are cut without an error (C04); font names of 256 or more characters and
  sheet names of 256 or more characters are not read back (C30, C44).
* Adding streams to the container in other than directory order loses them for lookup (C12); other numbers of streams
  than the three every workbook has give a container with wrong sizes (C09, C10).
* In the file system of the container, making a directory again that is not empty is undefined, a file system with a
  directory cannot be written, and `GetNode` finds nodes for paths that do not exist (C76).
* DIMENSION of an empty sheet is not empty (C16).
* The row-block walk runs past the end of the cells when a group of 16 rows stalls on row heights (C17, C18, C21).
* INDEX offsets are wrong from the second row block on, and after texts of more than 255 characters (C19).
* DBCELL records hold one offset per cell instead of one per row, and count from the first instead of the second ROW record (C67).
* Row heights below the last cell are never written (C35).
* Sheet-table positions ignore CONTINUE headers (C22).
* Unsigned integers from 0xE0000000 read back negative (C23).
* Mixed references, six-argument functions, CELL_DEFAULT references, long texts and array constants in formulas do not
  read back (C24, C26, C49); a formula built call by call for one sheet and put on another refers to the wrong sheet (C63); the announced formula size is wrong for most formulas (C25).
* Diagonal borders are accepted and never written (C28).
* Formatting one cell can change others after a format is revived, changed or adopted (C29).
* Shape identifiers collide from 1001 comments on and on a second save (C37). In every workbook with comments that is saved twice, the second file has shapes with
  numbers above the largest one that it announces (C66, `c66_largest_exceeded`).
* Failures after the stream data are not reported by the save call (C39).
* Range calls that reach row or column 2^32-1 never end (C42); the box's second colour lands in the foreground (C53).
* CLR_TAN is not tan; CURRENCY5 to CURRENCY8 contradict their documentation (C50, C51).
* Document properties above 4096 bytes overflow a buffer (C33).
* `defaultRowHeight(height, hidden)` never writes `hidden`, and heights from 3277 points up wrap in 16 bits (C59).
* A row height of 264 twips is written without the mark that it was set; rows with cells and no height of their own say 264 twips whatever the default height of rows is (C60).
* An area between cells of two sheets becomes an area on the first cell's sheet (C58).
* Saving can read freed memory: CONTINUE creation keeps a pointer across a growth of the store (C54).
* A new height for a row that has a format releases that format twice; after a few such calls formatting one cell changes others (C61).
* `GetFormat` answers General for every format that is not predefined; colour indices from 128 on and diagonals are answered by getters and not in the file; `GetInt` is undefined for unsigned numbers from 2^31 to 0xDFFFFFFF; `xlsFontGetName` with a zero-sized destination writes before it (C64).
* The box of a comment in one of the last columns lies in columns that no sheet has; in the last rows its lower side wraps above its upper side (C69).
* A formula with an array constant is unreadable wherever it is given, in cells and in conditions of validations (C49, C70).
* The time of the last save in a file is the time at which the workbook was made, in every save (C71; part of `Readable`).
* A formula that grows after its cell was saved makes later INDEX records point before the DBCELL records: the sizes of cells are remembered until a cell is added.  A
  save that cannot open its file is enough (C71, `c71_outdated_index`).
* The C functions read NULL where a text is needed, and cut texts at zero characters (C72).
* A font call on a cell shows in other cells when its format was given up and used again: the font counts too few users (C73, `c73_font_shown_elsewhere`; see also C29, C61).
* An expression object that two cells own, or that occurs twice in an owned expression (`op(+, a, a)`), is destroyed twice; one that an owning cell shared with another is
  read after it was destroyed; a function that is its own argument makes every save and the destruction recurse without end; the 65535th `PushArg` never returns (C74).
* (read) Expressions that no cell owns are never destroyed: the factory keeps no list of them and its destructor is empty (C74, `c74_kept_partial`).
* Writing to a place deletes the cell (or comment) there: pointers to it that the program still holds dangle, and any call on them is undefined (C75, `c75_dangling`).
  `workbook::font(number)` with a number above 4 reads past the end of a list (C75, `c75_font_number`).
* `SetCellMode` does not turn the flags of a format: what was set before is marked as not in the style, and the rest as in it (C79, `c79_flags_stay`).
* A format whose number was given by `SetFormatIndex` does not compare equal to one with that user format, though both answer and are written alike (C80, `c80_by_number`). The copy of a style is a cell format, and does not equal it (`c80_copy_equal`).
* The result object of a formula forbids assignment but not copying: a copy shares the text, and after the original is gone it can neither be read, set nor destroyed (C81, `c81_copy`). The library itself makes no copies.
* The result stored with T, N, ISPMT, HEX2DEC, OCT2DEC and BIN2DEC is of a kind these functions never yield (C82, `c82_wrong`); it is replaced when the file is calculated.
* `format_t::SetIndex` is public: calling it on a format that a cell format already uses leaves that cell format with a number that no FORMAT record carries (C83, `c83_renumber`).
* `Usage()` of a font can answer zero though a cell shows the font: a format that was given up by all cells does not mark its font again (C84, `c84_font_wrong`).
* Window coordinates above 1638 points wrap in 16 bits with sign (C65).
* (read) `SetFormat` by number leaks a usage count;
  directory names of 32 or more characters underflow the padding count.

## Trusted base

* Lean 4.33.0's kernel, and Mathlib where imported. No axioms of our own, no `sorry`, no `native_decide`, no
  `bv_decide`. `decide +kernel` is used on whole finite tables and on concrete witnesses only.
* The reading of the C++ text: that each definition does what the cited lines do.
* The specifications in the `Spec` files as statements of the BIFF8 / compound-file rules and of the documented API.

### Which parts of the code are modelled

Modelled: the logic that decides bytes of the saved file in `xlslib/` unit, record, continue, index, row, merged,
colinfo, label, number, boolean, err, blank, note, formula, formula_cell, formula_expr, formula_estimate, font, format,
extformat, colors, cell, range, sheetrec, globalrec, workbook, datast, HPSF, summinfo, docsumminfo, recdef; `oledoc/`
oledoc, olefs, oleprop, binfile; `common/stringtok.h`.

Not modelled: the functions of the C wrapper `xlslib/cbridge.cpp` that only return something (`xlsFontGetName` is modelled) and `xlsWorkbookIconvInType`, `SetCellMode` in programs on whole workbooks (one format: C79), `workbook::GetSheet` (answers the pointer that `sheet` answered), reuse of addresses by `new` after `delete`,
`common/` overnew, timespan, assert_assist and the type headers, the implementation of the C++ library's containers
(taken as their documented behaviour) and of `iconv`. The order in which `std::set` visits cells is modelled by the
comparison functions; the red-black tree is not.


### Axioms of each theorem

From `#print axioms`; all three are Lean's own.

* `[propext]` (11): `c23_sizes`, `c38_predefined`, `c45_call`, `c51_documented_partial`, `c51_swapped`, `c56_wide_partial`, `c65_window_lost`, `c76_search_wrong`, `c80_by_number`, `c83_renamed`, `c84_font_wrong`.
* `[propext, Quot.sound]` (56): `c01_getValue16`, `c01_getValue32`, `c02_limit_is_real`, `c03_setValueAt8`, `c03_setValueAt16`, `c03_setValueAt32`, `c03_patch8`, `c03_patch16_fails`, `c03_patch32_fails`, `c04_string_size`, `c19_sizes_partial`, `c23_value_unique`, `c24_default_class`, `c24_long_text`, `c25_stack`, `c25_stack_array`, `c25_subtree`, `c25_leaf_partial`, `c25_operators`, `c25_other_sheet`, `c25_fails`, `c26_undefined`, `c27_decodes`, `c27_distinct`, `c27_reserved`, `c27_recalculated`, `c27_volatile`, `c29_revived_format`, `c29_changed_format`, `c29_adopted_format`, `c30_defaults`, `c30_long_name`, `c32_declared_utf16`, `c38_unnamed`, `c41_tokens`, `c41_roundtrip`, `c41_bare`, `c41_nul_splits`, `c42_endless`, `c49_data_among_tokens`, `c49_numbers_token`, `c52_numbers`, `c56_sign_extended`, `c61_row_replaced`, `c63_refused`, `c63_refuses_fixed`, `c63_takes`, `c64_font_name`, `c64_font_name_empty`, `c72_null`, `c73_font_shown_elsewhere`, `c74_too_many`, `c75_font_number`, `c78_font_shared`, `c79_back`, `c80_copy_tells`.
* `[propext, Classical.choice, Quot.sound]` (273): `c01_append_then_get16`, `c01_append_then_get32`, `c01_append_then_read64`, `c01_patch_then_get16`, `c01_patch_then_get32`, `c02_appends`, `c02_record_appends`, `c03_patch16_partial`, `c03_patch32_partial`, `c03_array_patch_past_end`, `c04_len2_roundtrip`, `c04_len1_roundtrip`, `c04_nolen_roundtrip`, `c04_compression`, `c04_len1_too_long`, `c04_len2_too_long`, `c05_sst_reads_back`, `c06_table`, `c06_label_reads_back`, `c07_continued`, `c07_two_records_merged`, `c08_terminates`, `c08_minimal`, `c08_slots`, `c09_file_size`, `c09_unaligned`, `c10_streams_read_back`, `c10_workbook`, `c10_few_streams_fail`, `c10_many_streams_lost`, `c11_one_owner`, `c12_reachable`, `c12_lookup`, `c12_descending_lost`, `c13_padding`, `c14_last_write_wins`, `c14_frame`, `c15_row_major`, `c16_bounding_box`, `c16_empty_sheet`, `c17_cells_once_partial`, `c17_without_heights`, `c17_stalled_runs_past_end`, `c18_rows_announced_partial`, `c18_lone_cell_unannounced`, `c19_single_block_partial`, `c19_wrong_sizes`, `c19_later_offsets_wrong`, `c19_in_stream_partial`, `c19_row_range`, `c19_long_texts`, `c20_merged`, `c21_sections`, `c21_terminates_partial`, `c21_terminates_without_heights`, `c21_stalled_runs_past_end`, `c22_wrong_position`, `c22_positions_partial`, `c22_many_sheets`, `c22_many_rows`, `c23_signed`, `c23_unsigned_partial`, `c23_unsigned_negative`, `c23_double`, `c23_others`, `c24_record_partial`, `c24_array_record_partial`, `c24_parse_partial`, `c24_operators`, `c24_mixed_swapped`, `c24_mixed_swapped_area`, `c24_mixed_fails`, `c24_six_args`, `c24_fails`, `c25_text`, `c26_corrupt`, `c26_call_lost`, `c26_too_many`, `c26_one_value_partial`, `c26_fails`, `c27_record`, `c27_expression`, `c28_xf_partial`, `c28_no_diagonals`, `c28_diagonal_lost`, `c28_isolated`, `c29_cells_partial`, `c29_isolated_partial`, `c30_font`, `c30_record`, `c31_palette`, `c31_own_slot`, `c31_record`, `c32_read_back`, `c32_file`, `c33_short_partial`, `c33_overflow`, `c33_one_call`, `c34_kept_partial`, `c35_columns`, `c35_rows_partial`, `c36_group`, `c36_largest_id`, `c36_count_partial`, `c36_count_replaced`, `c36_drawing`, `c36_text`, `c37_within_sheet`, `c37_across_sheets_partial`, `c37_thousand_collide`, `c37_counter_grows`, `c37_second_save_collides`, `c37_not_unique`, `c38_user`, `c38_limit`, `c39_open_failure`, `c39_reported_iff`, `c39_data_failure_partial`, `c39_late_failure_unreported`, `c40_routing`, `c40_kinds`, `c42_sheet_partial`, `c42_range_partial`, `c43_ends_partial`, `c43_open_partial`, `c43_file_partial`, `c43_stream`, `c44_created`, `c44_index_wraps`, `c44_sheets_partial`, `c44_long_name_lost`, `c45_links`, `c46_validations`, `c47_notes`, `c47_call`, `c48_one_active`, `c48_flags`, `c49_texts_lost`, `c49_numbers_lost`, `c50_named_partial`, `c50_tan`, `c53_box_partial`, `c53_background`, `c54_few_partial`, `c54_hyperlinks`, `c54_dangling`, `c55_open_partial`, `c55_file_partial`, `c55_plain`, `c55_found_partial`, `c55_cells_partial`, `c55_lost`, `c56_ascii`, `c56_utf8_partial`, `c56_bytes_lost`, `c56_beyond`, `c56_direct`, `c57_plain`, `c57_cells_partial`, `c57_file_partial`, `c58_table_partial`, `c58_cells_partial`, `c58_file_partial`, `c58_plain`, `c58_ref`, `c58_area_partial`, `c58_corner_ignored`, `c59_plain`, `c59_page_partial`, `c59_default_rows_lost`, `c59_open_partial`, `c60_rows_partial`, `c60_open_partial`, `c60_plain`, `c60_default_ignored`, `c61_plain`, `c61_open_partial`, `c62_file_partial`, `c63_calls_partial`, `c63_refuses_count`, `c63_same`, `c63_other_sheet`, `c63_open_partial`, `c63_plain`, `c64_format_partial`, `c64_colours`, `c64_colour_cut`, `c64_diagonals`, `c64_get_format`, `c64_font`, `c64_int_of_double`, `c64_number`, `c64_signed`, `c64_unsigned`, `c65_stream_partial`, `c65_file_partial`, `c65_shapes_numbered`, `c65_saved_iff`, `c66_saves_partial`, `c66_no_trace`, `c66_shapes_renumbered`, `c66_largest_exceeded`, `c66_file_partial`, `c67_trailers_partial`, `c67_shifted`, `c68_range`, `c68_stream_partial`, `c68_file_partial`, `c69_boxes_partial`, `c69_size`, `c69_on_sheet`, `c69_box_off_sheet`, `c70_stream_partial`, `c70_file_partial`, `c70_array_unreadable`, `c71_index_only`, `c71_outdated_index`, `c71_life_partial`, `c71_no_trace`, `c72_free_partial`, `c72_program_partial`, `c72_cut`, `c73_cell_call`, `c73_cell_font`, `c73_format_setter`, `c73_font_setter`, `c73_stream_partial`, `c73_file_partial`, `c74_kept_partial`, `c74_once_partial`, `c74_saved_partial`, `c74_parsed_partial`, `c74_shared`, `c74_twice`, `c74_read_after`, `c74_part_of_itself`, `c75_safe`, `c75_released`, `c75_current`, `c75_replaced`, `c75_same`, `c75_dangling`, `c76_codes`, `c76_entries`, `c76_children`, `c76_find_partial`, `c76_directory_unsaved`, `c76_streams`, `c76_files`, `c77_wider`, `c77_life_partial`, `c77_no_trace`, `c77_index_only`, `c78_range`, `c78_range_font`, `c79_mode_partial`, `c79_flags_stay`, `c79_mode_first`, `c80_equal`, `c80_tell_partial`, `c80_copy_equal`, `c80_copy`, `c80_separate`, `c81_values_partial`, `c81_released`, `c81_copy`, `c82_kind_partial`, `c82_wrong`, `c82_everyday`, `c83_shows_partial`, `c83_renumber`, `c84_usage`, `c84_unused`.
