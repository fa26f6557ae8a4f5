{"id": "C01", "title": "Integer fields are little-endian and read back exactly", "statement": "Every 16, 32 or 64-bit integer that the library appends to a record, patches into a record, or writes into the container file occupies exactly 2, 4 or 8 bytes in little-endian order, and reading those bytes back yields the value that was written.", "quantifier": "for every integer value of the width, every record content before and after it, and every legal byte position", "why_tests_cant": "2^16, 2^32 and 2^64 values times every position in every record; a test samples a handful.", "anchors": ["xlslib/src/xlslib/unit.cpp: CUnit::AddValue16/AddValue32/AddValue64/SetValueAt16/SetValueAt32/GetValue16From/GetValue32From", "xlslib/src/oledoc/binfile.cpp: CBinFile::WriteUnsigned16/WriteSigned16/WriteUnsigned32/WriteSigned32"]}
{"id": "C02", "title": "Appending to a record never loses or reorders bytes", "statement": "After any sequence of append operations (single bytes, integers, byte arrays, constant fills), a record holds exactly the concatenation of everything appended, in order, and its reported size is the number of bytes appended; this is independent of how often the backing buffer had to grow or move from inline to heap storage. No append touches memory outside the buffer.", "quantifier": "for every finite sequence of append operations with every argument and every initial capacity hint", "why_tests_cant": "growth points depend on the exact cumulative sizes; the set of append histories is infinite.", "anchors": ["xlslib/src/xlslib/unit.cpp: CUnit::AddValue8/AddDataArray/AddFixedDataArray/Inflate/Append", "xlslib/src/xlslib/datast.cpp: CUnitStore::Prepare/Resize/Init/InitWithValue"]}
{"id": "C03", "title": "Patching a record is bounds-checked and local", "statement": "Overwriting bytes of an already built record at a given position either succeeds and changes exactly the addressed bytes, leaving the length and all other bytes alone, or reports an error and changes nothing; the error is reported exactly when the position is outside the record.", "quantifier": "for every record content, position and value", "why_tests_cant": "off-by-one positions at the end of every possible record size.", "anchors": ["xlslib/src/xlslib/unit.cpp: CUnit::SetValueAt8/SetValueAt16/SetValueAt32/SetArrayAt/GetValue8From"]}
{"id": "C04", "title": "Strings in records decode to what the user passed", "statement": "A string written into a record with a length prefix is decoded by a BIFF8 reader to the same sequence of 16-bit code units, using one byte per unit exactly when every unit is at most 0x7F; the number of bytes written equals the size the library predicts for it. For strings longer than the prefix can express the stored count is wrong.", "quantifier": "for every string of 16-bit units and each of the prefix formats", "why_tests_cant": "all strings and all lengths around the 255 and 65535 limits.", "anchors": ["xlslib/src/xlslib/unit.cpp: CUnit::AddUnicodeString/UnicodeStringLength", "xlslib/src/xlslib/globalrec.cpp: CGlobalRecords::IsASCII"]}
{"id": "C05", "title": "The shared string table survives being split over CONTINUE records", "statement": "For every list of long cell labels, the shared-string-table record together with its CONTINUE records has every payload at most 8224 bytes, every header length equal to the payload that follows, no string crosses a record boundary, and a reader recovers the declared count and, in order, every string (a string whose encoding exceeds 8224 bytes is replaced by a fixed notice).", "quantifier": "for every list of strings of any lengths and alphabets", "why_tests_cant": "chunk boundaries depend on cumulative encoded lengths; infinitely many lists.", "anchors": ["xlslib/src/xlslib/datast.cpp: CDataStorage::MakeSST", "xlslib/src/xlslib/globalrec.cpp: CGlobalRecords::DumpData"]}
{"id": "C06", "title": "A long label's string-table index names its own string", "statement": "After any history of creating, replacing and deleting labels longer than 255 characters, the index stored in each surviving label's cell record is the position of that label's text in the emitted string table, and the table holds exactly the surviving long labels.", "quantifier": "for every history of label creations and deletions", "why_tests_cant": "interleavings of insertions and removals that shift positions.", "anchors": ["xlslib/src/xlslib/label.cpp: label_t::setType/~label_t/CLabel", "xlslib/src/xlslib/globalrec.cpp: AddLabelSST/DeleteLabelSST/GetLabelSSTIndex"]}
{"id": "C07", "title": "Oversized records are continued without loss", "statement": "Whenever a record's payload exceeds 8224 bytes (and it is not already pre-split), the written stream contains the record clipped to 8224 bytes followed by CONTINUE records of at most 8224 bytes whose payloads concatenate to the original payload; all other records are written unchanged.", "quantifier": "for every record payload of every size", "why_tests_cant": "exact multiples of 8224 and all other sizes; the splitting loop is stateful across calls.", "anchors": ["xlslib/src/xlslib/workbook.cpp: workbook::DumpData (WB_CONTINUE_REC)", "xlslib/src/xlslib/datast.cpp: CDataStorage::Clip", "xlslib/src/xlslib/continue.cpp: CContinue"]}
{"id": "C08", "title": "Sector-table sizing terminates and is exactly sufficient", "statement": "For every amount of stream data, the computation of how many allocation-table and master-table sectors the container needs terminates, and its answer has room for every sector of the file (data, allocation tables, master tables, directory), fits the header plus master-table slots, and is the smallest number of allocation-table sectors with that property.", "quantifier": "for every number of data sectors", "why_tests_cant": "the loop is a fix-point iteration with a feedback term; thresholds near 109*128 sectors and each 127*128 sectors after that.", "anchors": ["xlslib/src/oledoc/oledoc.cpp: COleDoc::GetBATCount"]}
{"id": "C09", "title": "The container file has the size and alignment its header promises", "statement": "Every workbook file is a whole number of 512-byte sectors: one header, then master-table sectors, then stream data, then allocation-table sectors, then the directory, each region starting at the sector number recorded in the header, with the file length equal to the sum.", "quantifier": "for every three stream contents of every length", "why_tests_cant": "all data sizes including those needing extra master-table sectors (over about 6.8 MB).", "anchors": ["xlslib/src/oledoc/oledoc.cpp: DumpHeader/DumpData/DumpDepots/DumpFileSystem/DumpOleFile"]}
{"id": "C10", "title": "A conforming compound-file reader gets every stream back", "statement": "A reader that follows the compound-file rules (read the header, collect the allocation-table sector list from the header and the master-table chain, read the allocation table, read the directory, find a stream by name, follow its chain) recovers, for every stream put into the file, its exact bytes followed by zero padding up to the directory's recorded size.", "quantifier": "for every list of stream contents, of every length below the 32-bit limit", "why_tests_cant": "requires all offsets, chains and tables to agree simultaneously for every combination of stream sizes.", "anchors": ["xlslib/src/oledoc/oledoc.cpp: DumpOleFile", "xlslib/src/oledoc/olefs.cpp: AddFile/AddNode", "xlslib/src/oledoc/oleprop.cpp"]}
{"id": "C11", "title": "Each sector of the file has exactly one owner", "statement": "In the allocation table, the chains of distinct streams are disjoint, together cover exactly the data sectors, and every remaining sector is marked as master-table, allocation-table or directory in agreement with its real content; unused entries at the end are marked free.", "quantifier": "for every list of stream sizes", "why_tests_cant": "cross-linking errors occur only for particular combinations of sizes.", "anchors": ["xlslib/src/oledoc/oledoc.cpp: DumpDepots"]}
{"id": "C12", "title": "Every stream is reachable in the directory tree", "statement": "After adding any number of streams with distinct names to the container root, traversing the left/right/child links recorded in the directory visits every stream exactly once, and, when the streams are added in increasing directory order (as the library itself does), the tree is a valid search tree so that lookup by name succeeds.", "quantifier": "for every sequence of distinct stream names", "why_tests_cant": "link patterns differ for first, second and later streams; unboundedly many streams.", "anchors": ["xlslib/src/oledoc/olefs.cpp: AddNode", "xlslib/src/xlslib/workbook.cpp: workbook::Dump"]}
{"id": "C13", "title": "Streams are padded to whole sectors and the small-stream cutoff", "statement": "Each stream's stored size is the smallest multiple of 512 that is at least its length and at least 4096; the bytes after the real data are zeros.", "quantifier": "for every stream length", "why_tests_cant": "all residues modulo 512 and both sides of the 4096 cutoff.", "anchors": ["xlslib/src/oledoc/olefs.cpp: AddFile"]}
{"id": "C14", "title": "Last write to a cell wins", "statement": "After any sequence of cell writes (label, number, boolean, error, blank, formula), looking up a coordinate yields the most recently written cell for that coordinate, or nothing if it was never written; writing one coordinate never changes another.", "quantifier": "for every sequence of writes and every coordinate", "why_tests_cant": "infinitely many interleavings of overwrites; also depends on the insertion hint used by the cell set.", "anchors": ["xlslib/src/xlslib/sheetrec.cpp: worksheet::AddCell/FindCell/FindCellOrMakeBlank", "xlslib/src/xlslib/cell.h: insertsort"]}
{"id": "C15", "title": "Cells are stored and emitted in strict row-major order", "statement": "After any sequence of cell writes the sheet holds at most one cell per coordinate and enumerates cells in strictly increasing (row, column) order, whatever the order of the writes.", "quantifier": "for every sequence of writes", "why_tests_cant": "all permutations and duplicates of coordinates.", "anchors": ["xlslib/src/xlslib/sheetrec.cpp: worksheet::AddCell", "xlslib/src/xlslib/cell.h: insertsort"]}
{"id": "C16", "title": "The declared used range is the bounding box of the cells", "statement": "The DIMENSION record of every sheet with at least one cell or comment gives the least and greatest row and column used by cells and comments (upper limits exclusive), so every cell lies inside and each bound is attained. For a sheet without cells the declared range should be empty.", "quantifier": "for every non-empty set of cells", "why_tests_cant": "all shapes of cell sets; extreme rows and columns.", "anchors": ["xlslib/src/xlslib/sheetrec.cpp: GetFirstLastRowsAndColumns", "xlslib/src/xlslib/recdef.cpp: CDimension"]}
{"id": "C17", "title": "Every cell is written exactly once, in order", "statement": "The sheet stream contains each cell's record exactly once, in row-major order, for every set of cells and row-height settings; the emission loop terminates and never runs past the end of the cell list.", "quantifier": "for every set of cells and every set of explicit row heights", "why_tests_cant": "row-block packing is a state machine over 16-row groups with interleaved height-only rows; its failures need particular row populations.", "anchors": ["xlslib/src/xlslib/sheetrec.cpp: worksheet::RowBlocksDump"]}
{"id": "C18", "title": "Every row that holds cells has its ROW record in the same block", "statement": "Each row with at least one cell is announced by exactly one ROW record, with first/last column bounds covering its cells, located in the same row block as the cells; no block announces more than 16 rows.", "quantifier": "for every set of cells and row heights", "why_tests_cant": "the defect needs a specific count of rows (1 mod 16) with a single cell in the last row.", "anchors": ["xlslib/src/xlslib/sheetrec.cpp: RowBlocksDump/GetRowBlockSizes/GetNumRowBlocks", "xlslib/src/xlslib/row.cpp: CRow"]}
{"id": "C19", "title": "The row index points at the row-block trailers", "statement": "Each offset stored in a sheet's INDEX record is the stream position of the corresponding DBCELL record, and there is one per row block.", "quantifier": "for every set of cells", "why_tests_cant": "depends on cumulative byte sizes over all blocks.", "anchors": ["xlslib/src/xlslib/sheetrec.cpp: DumpData (SHEET_INDEX)/GetRowBlockSizes", "xlslib/src/xlslib/index.cpp: CIndex::AddDBCellOffset"]}
{"id": "C20", "title": "Merged ranges are all recorded, in bounded records", "statement": "For any number of merge requests the emitted MERGEDCELLS records contain every requested rectangle exactly once, in request order, with each record's count equal to the ranges it holds and at most 1027 ranges per record.", "quantifier": "for every list of merge requests", "why_tests_cant": "the batch boundary logic for counts around multiples of 1027.", "anchors": ["xlslib/src/xlslib/sheetrec.cpp: worksheet::DumpData (SHEET_MERGED)/merge", "xlslib/src/xlslib/merged.cpp: CMergedCells::AddRange"]}
{"id": "C21", "title": "A sheet's records come in the order readers require", "statement": "Serialising any sheet terminates, yields exactly one begin record first and one end record last, and all other records in the section order required by BIFF8 (index, default row height, column info, default column width, dimension, row blocks, drawings, notes, merged cells, window, pane, links, validity), each section present exactly when the sheet has data for it; afterwards the serialiser is back in its initial state so that the workbook can be saved again.", "quantifier": "for every sheet content", "why_tests_cant": "the serialiser is an 18-state machine pulled one record at a time.", "anchors": ["xlslib/src/xlslib/sheetrec.cpp: worksheet::DumpData"]}
{"id": "C22", "title": "Each sheet's directory entry points at its first record", "statement": "In the written stream, the position stored in each sheet's BOUNDSHEET record is the offset of that sheet's BOF record.", "quantifier": "for every number of sheets and every sheet content", "why_tests_cant": "offsets accumulate over all preceding records, including continued ones.", "anchors": ["xlslib/src/xlslib/workbook.cpp: workbook::DumpData", "xlslib/src/xlslib/recdef.cpp: boundsheet_t::SetSheetStreamPosition/CBSheet::SetStreamPosition"]}
{"id": "C23", "title": "Integers written as numbers keep their value", "statement": "A cell written from a signed or unsigned 32-bit integer, whatever internal encoding (compact 30-bit or 64-bit float) the library chooses, is decoded by a reader to that integer; a cell written from a double stores that exact bit pattern.", "quantifier": "for every 32-bit integer and every double", "why_tests_cant": "boundary values around plus/minus 2^29 and the unsigned range above 2^31; 2^32 inputs.", "anchors": ["xlslib/src/xlslib/number.cpp: number_t constructors/CNumber"]}
{"id": "C24", "title": "Formulas decode to the expression the user built", "statement": "For every expression tree whose function calls use permitted argument counts and whose parts fit the format's limits, the emitted token string is well-formed postfix and a BIFF8 parser rebuilds the same tree (operators, operands, references with their addressing modes, function codes and argument counts).", "quantifier": "for every expression tree", "why_tests_cant": "trees are unbounded in depth and arity; operand tokens have variable lengths.", "anchors": ["xlslib/src/xlslib/formula_expr.cpp: DumpData methods", "xlslib/src/xlslib/formula.cpp: Push* methods"]}
{"id": "C25", "title": "Formula size predictions equal the bytes written", "statement": "The size the library predicts for a formula or formula cell, which it uses to compute row-block offsets, equals the number of bytes it then writes.", "quantifier": "for every expression tree and every cached result", "why_tests_cant": "each node kind and nesting contributes; text alphabet and cross-sheet references matter.", "anchors": ["xlslib/src/xlslib/formula_expr.cpp: GetSize methods", "xlslib/src/xlslib/formula_cell.cpp: formula_cell_t::GetSize"]}
{"id": "C26", "title": "Wrong argument counts never produce a corrupt formula", "statement": "A function call with an argument count the function does not accept is either rejected or written so that the formula still parses to one value.", "quantifier": "for every function code and every argument count", "why_tests_cant": "485 functions times all counts, nested anywhere in a tree.", "anchors": ["xlslib/src/xlslib/formula.cpp: PushFunction", "xlslib/src/xlslib/formula_expr.cpp: function_basenode_t::DumpData"]}
{"id": "C27", "title": "Cached formula results decode unambiguously", "statement": "The 8-byte cached result stored with a formula decodes to the estimate given (boolean, error code, string marker, integer or float) and results of different kinds never share an encoding, provided a float result is not one of the NaN patterns reserved by the format.", "quantifier": "for every estimate value", "why_tests_cant": "the 2^64 float patterns overlap the tagged encodings.", "anchors": ["xlslib/src/xlslib/formula_estimate.cpp: GetEncodedValue/GetOptionFlags"]}
{"id": "C28", "title": "Cell format records carry exactly the attributes set", "statement": "The 20-byte XF record written for a format decodes, field by field, to the attributes that were set (alignments, wrap, orientation, indent, fill pattern and colours, the border styles and colours, locked, hidden, used-attribute flags, font and number-format index); setting one attribute does not disturb another.", "quantifier": "for every combination of attribute values", "why_tests_cant": "the product of all attribute domains is astronomically large; fields share words via shifts and masks.", "anchors": ["xlslib/src/xlslib/extformat.cpp: CExtFormat setters", "xlslib/src/xlslib/extformat.h: XF_* masks"]}
{"id": "C29", "title": "Formatting a cell affects that cell only", "statement": "After any sequence of cell-format changes, each cell's effective format (its own attributes) equals what the operations applied to that cell alone would produce; changing one cell never changes another, although equal formats are shared.", "quantifier": "for every interleaving of format operations over any set of cells", "why_tests_cant": "sharing and reference counts depend on the whole history.", "anchors": ["xlslib/src/xlslib/cell.cpp: cell_t format setters/set_cell_font", "xlslib/src/xlslib/globalrec.cpp: findXF", "xlslib/src/xlslib/extformat.cpp: operator==/MarkUsed/UnMarkUsed"]}
{"id": "C30", "title": "Font attribute switches are independent", "statement": "Setting or clearing italic, strikeout, outline or shadow on a font leaves the other attributes unchanged, and each getter reports the last value set.", "quantifier": "for every history of attribute changes", "why_tests_cant": "all 2^n histories of four flags packed in a word.", "anchors": ["xlslib/src/xlslib/font.cpp: SetItalic/SetStrikeout/SetOutline/SetShadow and getters"]}
{"id": "C31", "title": "Custom colours change only their own palette slot", "statement": "Defining a custom colour with a valid index replaces exactly that palette entry and no other, the last definition wins, invalid indices are rejected without effect, and the PALETTE record always lists 56 colours in index order with undefined ones at their defaults.", "quantifier": "for every sequence of colour definitions", "why_tests_cant": "histories mixing valid and invalid indices; copy-on-first-write.", "anchors": ["xlslib/src/xlslib/colors.cpp: colors::setColor/CPalette"]}
{"id": "C32", "title": "Document properties read back from the summary streams", "statement": "For every set of properties that fits, the summary stream has a correct section header: the count equals the number of distinct properties, every property's recorded offset is where its typed value begins, offsets are 4-byte aligned for values, setting a property twice keeps the last value, and a property-set reader recovers each value; the stream is exactly 4096 bytes.", "quantifier": "for every sequence of property settings whose total size fits", "why_tests_cant": "offsets depend on cumulative sizes of all earlier values.", "anchors": ["xlslib/src/xlslib/HPSF.cpp: hpsf_doc_t::insert/hpsfValue/CHPSFdoc", "xlslib/src/xlslib/summinfo.cpp", "xlslib/src/xlslib/docsumminfo.cpp"]}
{"id": "C33", "title": "Oversized document properties are handled safely", "statement": "Setting document properties whose total size exceeds the 4096-byte summary stream must not corrupt memory or produce a malformed stream.", "quantifier": "for every sequence of property settings", "why_tests_cant": "needs long property strings beyond what tests use.", "anchors": ["xlslib/src/xlslib/HPSF.cpp: CHPSFdoc"]}
{"id": "C34", "title": "Streaming the records out never frees a record still needed", "statement": "While records are serialised one by one and temporary ones are released, the bytes of every record remain in the output in order, and records that must be patched later (INDEX, BOUNDSHEET, DBCELL) keep their objects until their patching is done.", "quantifier": "for every sequence of record emissions and flushes", "why_tests_cant": "depends on the level structure of the whole stream.", "anchors": ["xlslib/src/xlslib/datast.cpp: CDataStorage::operator+=/FlushEm/FlushLowerLevelUnits/Push"]}
{"id": "C35", "title": "Column widths and row heights: last setting wins, output ordered", "statement": "After any sequence of column-width and row-height settings each column group or row has the setting given last, and COLINFO records come in increasing column order, one per distinct first column.", "quantifier": "for every sequence of settings", "why_tests_cant": "all interleavings of repeated settings.", "anchors": ["xlslib/src/xlslib/sheetrec.cpp: worksheet::colwidth/rowheight/defaultColwidth", "xlslib/src/xlslib/colinfo.cpp: CColInfo", "xlslib/src/xlslib/row.h"]}
{"id": "C36", "title": "Comment drawing records have consistent nested lengths", "statement": "For any number of cell comments, the nested drawing-container lengths in the drawing records equal the bytes that follow them, shape counts equal the number of comments, and the text record's character count equals the text written.", "quantifier": "for every list of comments with every text and author length", "why_tests_cant": "lengths nest three levels and accumulate over all comments.", "anchors": ["xlslib/src/xlslib/note.cpp: CNote::MakeDrawing/MakeDrawingGroup", "xlslib/src/xlslib/datast.cpp: MakeDrawingGroup"]}
{"id": "C37", "title": "Comment shape identifiers are unique in the workbook", "statement": "No two comments in a workbook share a drawing shape identifier.", "quantifier": "for every number of sheets and comments per sheet", "why_tests_cant": "collisions need about a thousand comments on one sheet.", "anchors": ["xlslib/src/xlslib/globalrec.h: MakeSPID", "xlslib/src/xlslib/note.cpp: dumpDrawData"]}
{"id": "C38", "title": "Number-format codes map one-to-one", "statement": "Every predefined number format maps to its distinct BIFF code, and looking a format up by that code returns the original; user formats get consecutive codes from 164 upward that never collide with predefined ones while fewer than 65372 are defined.", "quantifier": "for every predefined format and every history of user-format creations", "why_tests_cant": "history-dependent numbering; table-wide injectivity.", "anchors": ["xlslib/src/xlslib/format.cpp: format2index", "xlslib/src/xlslib/extformat.cpp: xf_t::GetFormat", "xlslib/src/xlslib/globalrec.cpp: AddFormat"]}
{"id": "C39", "title": "Save reports failure if bytes could not be written", "statement": "If any byte of the file cannot be written (for example the disk fills up at any point), saving the workbook returns an error code.", "quantifier": "for every workbook and every point at which writes begin to fail", "why_tests_cant": "needs failure injection at every byte offset.", "anchors": ["xlslib/src/oledoc/oledoc.cpp: DumpOleFile and callees", "xlslib/src/oledoc/binfile.cpp: write_service/Close", "xlslib/src/xlslib/workbook.cpp: Dump"]}
{"id": "C40", "title": "Document properties go to the right stream", "statement": "Each document-property kind is stored in exactly one of the two summary streams, under its format-defined identifier, and unsupported kinds are rejected.", "quantifier": "for every property kind", "why_tests_cant": "finite but table-driven: a missed row is invisible to tests that set common properties.", "anchors": ["xlslib/src/xlslib/workbook.cpp: workbook::property", "xlslib/src/xlslib/summinfo.cpp: property2summary", "xlslib/src/xlslib/docsumminfo.cpp: property2docSummary"]}
{"id": "C41", "title": "Paths split into their components", "statement": "Splitting a stream path on its separators yields exactly its non-empty components, in order, none containing a separator.", "quantifier": "for every path string and separator set", "why_tests_cant": "all strings.", "anchors": ["xlslib/src/common/stringtok.h: stringtok"]}
{"id": "C42", "title": "Range operations touch exactly the rectangle", "statement": "Applying a format to a range modifies (creating blank cells when needed) exactly the cells of the rectangle and no others; cell contents outside and inside keep their values.", "quantifier": "for every rectangle, sheet content and operation", "why_tests_cant": "all rectangles and sheet contents.", "anchors": ["xlslib/src/xlslib/range.cpp: SET_RANGE_FUNCTION/cellcolor/boxer", "xlslib/src/xlslib/sheetrec.cpp: FindCellOrMakeBlank"]}
{"id": "C43", "title": "The workbook stream parses as a sequence of records", "statement": "Walking the written workbook stream by the length fields in the record headers visits exactly the emitted records and ends exactly at the end of the stream.", "quantifier": "for every workbook whose string and size limits are respected", "why_tests_cant": "one wrong length field anywhere desynchronises a reader.", "anchors": ["xlslib/src/xlslib/record.cpp: SetRecordLength", "xlslib/src/xlslib/formula_cell.cpp: CFormula", "xlslib/src/xlslib/workbook.cpp: DumpData"]}
{"id": "C44", "title": "Sheets are numbered in creation order", "statement": "The i-th sheet created is returned by index i, has its name in the i-th BOUNDSHEET record and its content in the i-th substream, for any number of sheets up to 65535.", "quantifier": "for every sequence of sheet creations", "why_tests_cant": "unbounded sequences; 16-bit wrap-around.", "anchors": ["xlslib/src/xlslib/workbook.cpp: workbook::sheet/GetSheet", "xlslib/src/xlslib/globalrec.cpp: AddBoundingSheet"]}
{"id": "C45", "title": "Hyperlinks read back", "statement": "The hyperlink records of a saved sheet, read as the file format prescribes, list the hyperlinks added to the sheet in the order they were added, each with its cell, URL and text mark.", "quantifier": "for every list of hyperlinks whose texts fit a record", "why_tests_cant": "all texts and cells, including the variant without mark; hidden length fields with terminators.", "anchors": ["xlslib/src/xlslib/sheetrec.cpp: worksheet::hyperLink/MakeHyperLink"]}
{"id": "C46", "title": "Data validations read back", "statement": "The data-validation records of a saved sheet, read as the file format prescribes, list the validations added in order with options, titles, texts, conditions and rectangle, and the header record announces their number.", "quantifier": "for every list of validations whose conditions announce their true size and whose record fits", "why_tests_cant": "all texts, options and rectangles in combination.", "anchors": ["xlslib/src/xlslib/sheetrec.cpp: worksheet::validate/MakeDataValidationHeader/MakeDataValidationEntry"]}
{"id": "C47", "title": "Comments are read back as written", "statement": "After a save, the NOTE records of a sheet, read as the file format prescribes, have for every comment the row, column and author given and the number of an object; the drawing has an object with that number whose text is the author, a colon, a line feed and the text given. Authors of 1 to 54 and texts of 1 to 2048 characters are kept exactly; others are replaced by a fixed warning, never truncated or dropped.", "quantifier": "for all sheets, all lists of up to 65535 comments, all rows and columns below 65536, all authors and texts", "why_tests_cant": "The number linking NOTE and drawing object, the text's announced length and the position in two separate parts of the stream depend on all comments of the sheet; tests show a few comments with short texts.", "anchors": ["xlslib/src/xlslib/note.cpp:note_t::Finalize,note_t::MakeDrawing,CNote", "xlslib/src/xlslib/sheetrec.cpp:worksheet::note,worksheet::DumpData"]}
{"id": "C48", "title": "Exactly one sheet is the active one", "statement": "In a saved workbook exactly one sheet is marked as the one in front, and the workbook window names the same sheet: the sheet activated last, or the first one if none was activated.", "quantifier": "for every sequence of sheet creations, activations and other calls with at most 65536 sheets", "why_tests_cant": "the mark is in each sheet's own record and the number in the workbook's; they agree only through the numbering of all sheets.", "anchors": ["xlslib/src/xlslib/sheetrec.cpp: worksheet::MakeActive, worksheet::DumpData", "xlslib/src/xlslib/workbook.cpp: workbook::sheet", "xlslib/src/xlslib/recdef.cpp: CWindow1, CWindow2"]}
{"id": "C49", "title": "Array constants in formulas decode to their values", "statement": "A one-dimensional array constant of texts or of numbers given to a formula is stored so that a reader of the file gets the same values back in the same order.", "quantifier": "for every list of texts and every list of numbers", "why_tests_cant": "values and list lengths are unbounded, and the layout depends on data placed after the token string.", "anchors": ["xlslib/src/xlslib/formula.cpp: PushTextArray, PushFloatingPointArray, DumpData", "xlslib/src/xlslib/formula_cell.cpp: CFormula"]}
{"id": "C50", "title": "Named colours show as the colour they name", "statement": "A cell format filled, or a font written, in one of the 56 colour names of the interface is shown by a reader of the file in that colour: the palette index in the XF or FONT record selects, in the PALETTE record of the same file, the red-green-blue value the name stands for, unless the program itself changed that palette entry.", "quantifier": "for every colour name, every history of other format and font calls before and after, and every sequence of palette changes to other entries", "why_tests_cant": "The link goes through two tables and two records written at different times; a test checks the few colours it happens to use, and a wrong entry in either table is a plausible colour anyway.", "anchors": ["xlslib/src/xlslib/colors.cpp default_palette", "xlslib/src/xlslib/colors.h color_name_t", "xlslib/src/xlslib/extformat.cpp COLOR_OPTION_TABLE", "xlslib/src/xlslib/font.cpp COLOR_OPTION_TABLE"]}
{"id": "C51", "title": "Predefined number formats show what their documentation says", "statement": "Choosing one of the predefined number formats for a cell makes a spreadsheet program display numbers the way the header documents for that name: same number of decimals, grouping, currency sign, parentheses and red for negatives, date and time fields.", "quantifier": "for every predefined number format name", "why_tests_cant": "The name goes through a translation table to a numeric code whose meaning is fixed outside the library; a test that only compares codes with the same table agrees with any error in it.", "anchors": ["xlslib/src/xlslib/format.h format_number_t", "xlslib/src/xlslib/extformat.cpp xf_t::format_num2index"]}
{"id": "C52", "title": "Font and cell-format numbers point at the right record", "statement": "The number a cell record carries for its format is the position of that format's record in the file, and the number a format record carries for its font is the position of that font's record, counting the one position (4) that the file format skips.", "quantifier": "for every history of creating fonts and formats and of formatting calls on cells, formats and fonts", "why_tests_cant": "Numbers are given out while objects are created and records are written much later from several lists; an off-by-one shows only for certain numbers of fonts, and with most fonts looking alike a test does not notice.", "anchors": ["xlslib/src/xlslib/globalrec.cpp CGlobalRecords::AddFont", "xlslib/src/xlslib/globalrec.cpp CGlobalRecords::AddXFormat", "xlslib/src/xlslib/globalrec.cpp CGlobalRecords::DumpData", "xlslib/src/xlslib/font.cpp font_t::SetIndex", "xlslib/src/xlslib/extformat.cpp xf_t::SetIndex"]}
{"id": "C53", "title": "A box is drawn around exactly the outline of a range, in the given colours", "statement": "range::boxer(style, fill, border colour, first colour, second colour) gives every cell of the rectangle the border style and colour on exactly those sides that lie on the outline of the rectangle, the fill pattern, the first colour as foreground and the second as background; everything else about the cells (contents, font, number format, alignment, other sides, cells outside) stays as it was.", "quantifier": "for every workbook, every rectangle (also one row or one column), every border style, fill and colours, whatever formats the cells had and shared before", "why_tests_cant": "the formats of cells are shared and a cache decides which cells get the same changed format; a test sees a few rectangles over a few formats, the claim is over all of them", "anchors": ["xlslib/src/xlslib/range.cpp: range::boxer, range::cellcolor", "xlslib/src/xlslib/range.h", "xlslib/src/xlslib/cell.cpp: cell_t::borderstyle, cell_t::fillfgcolor"]}
{"id": "C54", "title": "Saving never reads freed memory, however large the workbook", "statement": "workbook::Dump never uses a record object or a buffer after it has been released; in particular not when a record is so long that it must be continued in CONTINUE records.", "quantifier": "for every workbook: any number of sheets, cells, rows, strings, hyperlinks, data validations and comments of any length", "why_tests_cant": "whether memory is read after it is freed depends on the number of records before a long one compared with an estimate made beforehand; only one particular number triggers it, and the bytes read may happen to be right", "anchors": ["xlslib/src/xlslib/workbook.cpp: workbook::Dump, workbook::DumpData", "xlslib/src/xlslib/datast.cpp: CDataStorage", "xlslib/src/xlslib/sheetrec.cpp: worksheet::EstimateNumBiffUnitsNeeded", "xlslib/src/xlslib/globalrec.cpp: CGlobalRecords::EstimateNumBiffUnitsNeeded4Header"]}
{"id": "C55", "title": "Cells of every kind are read back from the saved file", "statement": "After any sequence of cell writes (text, number, boolean, error, blank, formula) on the sheets of a workbook, a reader that opens the saved file, finds each sheet through the sheet table and looks long texts up in the shared string table, finds on each sheet, in row-major order, exactly the places that were written there, each with what was written there last and with the format number of the cell; nothing else is on the sheet.", "quantifier": "all sequences of cell writes to any number of sheets, in any order and over one another, all values and texts, all formats", "why_tests_cant": "the path from a call to a cell in the file goes through the cell set, the shared string table, the row blocks, record continuation, the sheet table and the container; a test checks a few values in a few places, while a wrong interaction shows only for particular orders, sizes and overwrites", "anchors": ["xlslib/src/xlslib/sheetrec.cpp: worksheet::label, worksheet::number, worksheet::boolean, worksheet::error, worksheet::blank, worksheet::formula, worksheet::AddCell, worksheet::RowBlocksDump", "xlslib/src/xlslib/label.cpp: CLabel, label_t", "xlslib/src/xlslib/number.cpp: CNumber", "xlslib/src/xlslib/formula_cell.cpp: CFormula", "xlslib/src/xlslib/globalrec.cpp: CGlobalRecords::AddLabelSST, CGlobalRecords::DeleteLabelSST", "xlslib/src/xlslib/workbook.cpp: workbook::Dump, workbook::DumpData"]}
{"id": "C56", "title": "Texts keep their characters", "statement": "A text passed to any call, as UTF-8 bytes or as a wide string, is stored in the file as the UTF-16 units of exactly these characters.", "quantifier": "every text, both ways of passing it, every build (with or without iconv, signed or unsigned char)", "why_tests_cant": "the conversion depends on build configuration and on each of 0x10FFFF characters in any combination; tests use a few ASCII texts in one build", "anchors": ["xlslib/src/xlslib/globalrec.cpp: CGlobalRecords::char2str16, wide2str16, str16toascii, IsASCII", "xlslib/src/xlslib/unit.cpp: CUnit::AddUnicodeString(CGlobalRecords&, const std::string&, XlsUnicodeStringFormat_t)"]}
{"id": "C57", "title": "Cells come out of the saved file with the content and the look they were given", "statement": "Take any program that creates fonts, number formats and formats, writes cells of any kind on any sheets (with or without a format), overwrites cells, and sets fonts, formats and attributes of cells, formats and fonts in any order. After saving, a reader that opens the file, follows the sheet table to each sheet, and follows each cell's format number to its XF record, from there to its FONT record and to its FORMAT record, finds on each place exactly the cell written there last, with its content, the attributes and font that the calls on that cell (and before it on its format) ask for, and the code of its number format.", "quantifier": "for every sequence of API calls on cells, fonts, formats and number formats, every number of sheets, all values", "why_tests_cant": "The path from a call to what a reader sees crosses the sharing of formats, the deletion of overwritten cells, the string table, the numbering of four kinds of records and two container formats; tests look at single files and single attributes.", "anchors": ["xlslib/src/xlslib/sheetrec.cpp: worksheet::label, number, boolean, error, blank, formula, AddCell", "xlslib/src/xlslib/cell.cpp: cell_t::cell_t, ~cell_t, GetXFIndex, format and font functions", "xlslib/src/xlslib/globalrec.cpp: findXF, AddXFormat, AddFont, AddFormat, DumpData", "xlslib/src/xlslib/workbook.cpp: font, format, xformat"]}
{"id": "C58", "title": "References to other sheets lead to the right sheet", "statement": "A formula given to a worksheet may refer to cells and areas on other worksheets of the same workbook. In the saved file, each such reference names (through the workbook's list of external references) the sheet on which the referenced cell was created, under that sheet's name; references to the formula's own sheet name no sheet; and an area between two cells on different sheets is not silently moved to one of them.", "quantifier": "for all numbers and names of sheets, all formulas on any sheet, all expressions with any mixture of own-sheet and cross-sheet references, all cell contents beside them", "why_tests_cant": "The number in the reference, the list of external references and the sheet table are written at different times by different objects; a test sees a few sheets, while the numbering must agree for every sheet count (including counts for which the list needs continuation records) and every formula.", "anchors": ["xlslib/src/xlslib/formula.cpp: PushReference, PushAreaReference", "xlslib/src/xlslib/formula_expr.cpp: cell_deref_node_t, cellarea_deref_node_t", "xlslib/src/xlslib/datast.cpp: MakeCExternBook, MakeCExternSheet", "xlslib/src/xlslib/workbook.cpp: sheet", "xlslib/src/xlslib/globalrec.cpp: DumpData"]}
{"id": "C59", "title": "Everything that belongs to a sheet besides its cells comes out of the saved file as it was asked for", "statement": "Take any program that calls, in any order and any number of times on each sheet, the functions for column widths, row heights, merged ranges, hyperlinks, data validations, default row height and column width, frozen panes and comments. After saving, a reader that opens the file and follows the sheet table finds on each sheet: the default sizes (and hidden default rows) last asked for; exactly the columns that were given a width, with the width and format last given; all merged rectangles, links and validations in the order of the calls; the panes last frozen, with the right active pane; and exactly the commented cells, each with the author and text last given, the author in its own font and the text upright at the top left of its box; every sheet is looked at from its first cell, with grid lines, headings and zeros at the usual zoom; and none of it moved to another sheet.", "quantifier": "for every number of sheets, every sequence of such calls on each sheet, and every set of cells written besides", "why_tests_cant": "Each kind of record has its own list, order and continuation rule, comments are spread over five record types linked by object numbers, and the settings interact in the file by position only; tests try one feature at a time.", "anchors": ["xlslib/src/xlslib/sheetrec.cpp: worksheet::DumpData, colwidth, rowheight, merge, hyperLink, validate, note, AddNote, MakeDataValidationEntry, MakeHyperLink", "xlslib/src/xlslib/sheetrec.h: worksheet::defaultRowHeight, defaultColwidth, SplitWindow", "xlslib/src/xlslib/note.cpp: note_t, MakeDrawing, CNote", "xlslib/src/xlslib/colinfo.cpp: CColInfo", "xlslib/src/xlslib/merged.cpp: CMergedCells", "xlslib/src/xlslib/recdef.cpp: CWindow2"]}
{"id": "C60", "title": "The saved file has the rows that were asked for: row of every cell, heights and row formats last given", "statement": "For a workbook made of any sheets with any cells and any calls (rowheight with or without a format, default height, widths, comments, ...), every sheet in the saved file holds ROW records in increasing order whose column bounds cover every cell of the row and begin and end at a cell; every row that was given a height has a record with the height and format last given, marked as set by hand; every other row is not marked. The claim holds exactly if no row was last given the height 264 (the built-in default, written unmarked), no height was given to a row below the last cell (not written), and no cell is alone after a multiple of 16 rows (its row is not written). Rows without a height of their own say 264 twips, which no default height can equal.", "quantifier": "for all histories of cell writes on any number of sheets, all sequences of calls, all runs of the save that complete", "why_tests_cant": "the conditions depend on how all cells, heights and the groups of 16 rows fall together across the sheet; a test sees one layout, and the failing cases need an exact multiple of 16 rows or a height below the last cell", "anchors": ["xlslib/src/xlslib/row.cpp: CRow::CRow", "xlslib/src/xlslib/sheetrec.cpp: worksheet::RowBlocksDump, worksheet::rowheight", "xlslib/src/xlslib/row.h: ROW_DFLT_HEIGHT, ROW_GRBIT_UNSYNC"]}
{"id": "C61", "title": "Formats given to columns and rows are found in the saved file", "statement": "A program may write cells, make fonts, number formats and formats, change the look of cells, and give column widths and row heights with or without a format, as often as it likes and in any order, along with merged ranges, frozen panes, links, validations and comments. After saving, a reader that follows a column's or row's format number into the XF records, and from there into the FONT and FORMAT records, finds the attributes, font and number format that the program asked of that format, or the default look if none was given; and all cells, columns, rows and other settings are as asked, whatever was done to other cells, columns and rows that share formats.", "quantifier": "for all programs of cell writes, style calls and sheet calls on a new workbook, any number of sheets, and all formats of columns and rows", "why_tests_cant": "Formats are shared by usage counts between cells, columns and rows; whether some order of calls lets a change of one leak into another depends on the whole history of counts, which no finite set of call orders covers.", "anchors": ["xlslib/src/xlslib/sheetrec.cpp: worksheet::colwidth, worksheet::rowheight", "xlslib/src/xlslib/row.cpp: rowheight_t, CRow", "xlslib/src/xlslib/colinfo.cpp: CColInfo", "xlslib/src/xlslib/extformat.cpp: xf_t::MarkUsed, xf_t::UnMarkUsed"]}
{"id": "C62", "title": "A whole program, from the calls to the file and back", "statement": "A program makes a workbook with named sheets, writes cells, formats them, sets sizes, ranges, panes, links, validations and comments, and sets document properties. Saving it ends and gives a compound file in which a reader finds the workbook stream with all sheets, cells, looks and settings as asked, and the two property streams with the properties as asked.", "quantifier": "for all programs within stated limits (at most 1000 sheets, rows that do not stall the row blocks (C17), at most 32832 rows with cells a sheet, values and texts that fit one record, properties within 4096 bytes, less than 2 GB)", "why_tests_cant": "It quantifies over whole programs and composes every layer of the library; a test observes one file at a time and cannot exclude interactions between layers.", "anchors": ["xlslib/src/xlslib/workbook.cpp: workbook::Dump", "xlslib/src/xlslib/globalrec.cpp: CGlobalRecords", "xlslib/src/xlslib/sheetrec.cpp: worksheet", "xlslib/src/oledoc/oledoc.cpp: COleDoc", "xlslib/src/xlslib/HPSF.cpp: hpsf_doc_t"]}
{"id": "C63", "title": "A formula built call by call is the formula asked for", "statement": "A formula may be built by pushing operands, operators and functions in reverse Polish order, without an expression tree. Whatever the calls, if none is refused, a reader of the saved cell finds exactly the formula the calls denote; if the calls denote none (an operator or function with too few operands before it, or more or fewer than one operand left), the reader finds no formula rather than another one. A function is refused exactly if the function table does not permit the number of arguments; a refused call leaves the formula as it was. Every formula an expression tree can write can also be built this way, with the same bytes.", "quantifier": "for all sequences of pushes within the limits of the file format, all sheets, and all programs that put such formulas into cells", "why_tests_cant": "The sequences of pushes are unbounded, and a reader's stack must be followed through each of them; tests try a few formulas and look only at well-formed ones.", "anchors": ["xlslib/src/xlslib/formula.cpp: formula_t::Push*", "xlslib/src/xlslib/formula.h: formula_t", "xlslib/src/xlslib/sheetrec.cpp: worksheet::formula_data, worksheet::formula", "xlslib/src/xlslib/formula_cell.cpp: formula_cell_t", "xlslib/src/xlslib/cbridge.cpp: xlsFormulaPush*"]}
{"id": "C64", "title": "Getters answer what the saved file says", "statement": "After any sequence of setter calls, the getters of a font (name, height, weight, underline, script, colour, the four switches, family, charset) and of a format (font, number format, alignments, indent, orientation, fill, colours, borders, protection, wrap, flags) return what a reader finds in the FONT or XF record written for it; GetDouble and GetInt of a number cell return the number in its record, with GetInt the integer part of any double; xlsFontGetName leaves the name, cut to the buffer, terminated.", "quantifier": "for all sequences of setter calls with arguments of the C++ types, all doubles (every bit pattern), all 32-bit integers, all names and buffers", "why_tests_cant": "A test compares a few getters after a few calls; agreement of every getter with the record after any history, and of the double-to-integer conversion with the exact value of every one of 2^64 patterns, is beyond enumeration.", "anchors": ["xlslib/src/xlslib/extformat.cpp: xf_t::GetFormat, xf_t::GetBorderStyle, xf_t::GetFlags, xf_t::GetIndent", "xlslib/src/xlslib/font.cpp: font_t::GetName, font_t::GetItalic", "xlslib/src/xlslib/number.h: number_t::GetInt, number_t::GetDouble", "xlslib/src/xlslib/cbridge.cpp: xlsFontGetName"]}
{"id": "C65", "title": "The workbook as a whole: window, active sheet, colours, styles, drawings and used ranges", "statement": "A program makes sheets, chooses the active one, places and sizes the window, sets the first tab and the width of the tab bar, changes colours of the palette, and works on cells, formats, columns, rows and comments, in any order that respects that a sheet must be made before it is used. The file it saves is determined by these calls. A reader finds the code page for UTF-16, dates counted from 1900, the window where and as large as last asked, the sheet last made active (the first one otherwise) as the active one and it alone as selected and displayed, the colours as last given, six built-in styles each naming a style format with the number format that belongs to it, the number of drawings and shapes that the comments make, and for each sheet the smallest range that holds its cells and comments; besides everything else as asked.", "quantifier": "for all programs of these calls on a new workbook within the limits of C61 and C62", "why_tests_cant": "It speaks about all interleavings of calls on the workbook, on its sheets and on cells, and about records whose content depends on all of them together; tests save a few fixed programs and do not look at the workbook-wide records.", "anchors": ["xlslib/src/xlslib/workbook.cpp: workbook::sheet, workbook::setColor, workbook::windPosition, workbook::windSize, workbook::DumpData", "xlslib/src/xlslib/globalrec.cpp: CGlobalRecords::CGlobalRecords, CGlobalRecords::DumpData", "xlslib/src/xlslib/recdef.cpp: CWindow1, CStyle", "xlslib/src/xlslib/sheetrec.cpp: worksheet::MakeActive, worksheet::AddCell, worksheet::AddNote, worksheet::note", "xlslib/src/xlslib/recdef.cpp: CDimension"]}
{"id": "C66", "title": "A workbook may be saved any number of times", "statement": "A program may save its workbook, go on working on it, and save it again, as often as it likes; a save without sheets or to a file that cannot be opened reports an error and changes nothing. Every other save writes a complete file in which a reader finds exactly what the calls made before that save asked for, as if the workbook had not been saved before; without comments the bytes are the same as those of a workbook with the same calls that was never saved before, so that saving twice without a change writes the same bytes twice.", "quantifier": "for every sequence of calls and saves in any order, every save in it, every content of the workbook at each save", "why_tests_cant": "the claim is about all histories; state left behind by one save (iterators, counters, cached sizes) shows only in particular later saves.", "anchors": ["xlslib/src/xlslib/workbook.cpp: workbook::Dump, DumpData", "xlslib/src/xlslib/globalrec.cpp: CGlobalRecords::DumpData", "xlslib/src/xlslib/sheetrec.cpp: worksheet::DumpData, GetRowBlockSizes", "xlslib/src/xlslib/note.cpp: dumpDrawingContainer, dumpDrawingText"]}
{"id": "C67", "title": "Row-block trailers lead to the first cell of each row", "statement": "Each row block of a sheet ends with a DBCELL record. Its first field leads back to the first ROW record of the block; its offsets, the first counted from the second ROW record and each other one from the place before, lead to the first cell record of each row of the block that has cells.", "quantifier": "for all sets of cells of any record sizes, all row heights, all states an earlier save left, all stream positions, for which the row blocks can be written (C17)", "why_tests_cant": "The offsets depend on the sizes of all records of the block and on how the cells are spread over rows; a test sees one arrangement, and spreadsheet programs often rebuild the index instead of using it.", "anchors": ["xlslib/src/xlslib/sheetrec.cpp: worksheet::RowBlocksDump", "xlslib/src/xlslib/row.cpp: CDBCell"]}
{"id": "C68", "title": "Ranges in whole workbooks", "statement": "In a program of any calls on a workbook, also calls on ranges of any sheets: each range call changes the look of every cell of its rectangle as the same call on each cell would, makes blank cells where there were none and changes nothing else; and after saving, a reader finds all values and looks as asked, and used ranges that include the rectangles.", "quantifier": "for all sequences of calls on a new workbook, with operations on any rectangles of any sheets between the others, that stay within the limits of the file format and library", "why_tests_cant": "Cells share formats; a range call moves many cells to new or remembered formats at once. Whether some other cell, on another sheet, changes too depends on the whole history of sharing.", "anchors": ["xlslib/src/xlslib/range.cpp: range::cellcolor, boxer, all setters", "xlslib/src/xlslib/sheetrec.cpp: worksheet::rangegroup, FindCellOrMakeBlank", "xlslib/src/xlslib/workbook.cpp: workbook"]}
{"id": "C69", "title": "The boxes of comments have the colours and places that were given", "statement": "In every workbook built by calls of the API and saved, each comment of each sheet, and nothing else, has a box in the file; the box has the colour last given to that comment (red, green and blue as given; the colour of tips if none was given since the comment was made), and lies where the comment was last moved to (beside its cell, at most 20 rows high and wide enough for its text, if it was not moved since); the box is on the sheet.", "quantifier": "for all programs of calls, all sheets, all comments (author, text, place), all colours and positions", "why_tests_cant": "The box depends on the whole history of calls for the cell and on arithmetic on the text's length and line breaks in 16 bits; tests see a few comments far away from the sheet's edges.", "anchors": ["xlslib/note.cpp: note_t::Finalize, dumpDrawingText, MakeDrawing", "xlslib/note.h: SetFillColor, SetNoteRect", "xlslib/sheetrec.cpp: worksheet::note, AddNote, DumpData"]}
{"id": "C70", "title": "Formula objects mean what has been pushed on them by the time of saving", "statement": "A program makes formula objects for sheets, pushes operands, functions and operations on them, and gives them to cells and to data validations at any time, one object to any number of places, before, between or after the pushes. After saving, a reader finds in each cell that was last given a formula object, and in each condition of each validation, the formula that all accepted calls on that object up to the save describe; calls that were refused change nothing; and everything else in the workbook is as asked.", "quantifier": "for all programs of calls on a new workbook with any number of formula objects, all interleavings of pushes with giving the objects away and with all other calls, within the limits of C68", "why_tests_cant": "Cells and validations hold the object and not its content, and their sizes are computed separately from their contents; what is written depends on the history of the object after the place was filled. Tests push everything first and use each formula once.", "anchors": ["xlslib/src/xlslib/sheetrec.cpp: worksheet::formula, worksheet::formula_data, worksheet::validate", "xlslib/src/xlslib/formula_cell.cpp: formula_cell_t::DumpData, GetSize", "xlslib/src/xlslib/formula.cpp: formula_t::PushOperator, PushFunction, DumpData, GetSize", "xlslib/src/xlslib/sheetrec.cpp: worksheet::MakeDataValidationEntry"]}
{"id": "C71", "title": "The whole life of a workbook", "statement": "A program calls everything that the library offers on sheets, cells, formats, fonts, ranges, columns, rows, comments, links, validations, formula objects, the window and document properties, and saves the workbook as often as it likes, in any order. Each save writes a complete file in which a reader finds exactly what the calls made before that save ask for: formulas as they are at that time, properties as last given by that time. Saves change nothing in the workbook. Without comments, earlier saves leave no trace in the workbook stream. The time of the last save in the file is the time of the save.", "quantifier": "for all sequences of calls and saves on a new workbook within the limits of C70 at each save, all times and property texts that fit", "why_tests_cant": "It is about all interleavings of calls of all kinds with saves; each save sees state left by earlier saves and by calls before and after them. Tests build a workbook, save it once and end.", "anchors": ["xlslib/src/xlslib/workbook.cpp: workbook::Dump, workbook::DumpData, workbook::property", "xlslib/src/xlslib/summinfo.cpp: CSummaryInfo::CSummaryInfo, CSummaryInfo::DumpData", "xlslib/src/xlslib/docsumminfo.cpp: CDocSummaryInfo::DumpData", "xlslib/src/xlslib/sheetrec.cpp: worksheet", "xlslib/src/xlslib/formula.cpp: formula_t", "xlslib/src/xlslib/range.cpp: range"]}
{"id": "C72", "title": "A program written against the C interface", "statement": "A C program that calls the xls\u2026 functions \u2013 with texts as C strings, in UTF-8 or in wide characters, with anything in memory after the terminating zero, with NULL where a text may be left out, with pointers to the cells, sheets, fonts, formats and formulas it made \u2013 gets the same workbook as a program that calls the C++ methods with those texts: it runs without undefined behaviour, each save writes a complete file, and a reader finds every cell, text, formula, link, comment, validation, format and property as meant, the texts as Unicode texts. A text that may not be NULL is checked.", "quantifier": "for all sequences of calls of the C interface on a new workbook within the limits of C71, all texts that can be stored (C56) and all contents of memory after them, all builds with or without iconv", "why_tests_cant": "It is about all programs of about a hundred functions in any order and all contents of memory behind each pointer; a test shows that some pointer arguments work once, not that none of the functions swaps or cuts an argument in some state.", "anchors": ["xlslib/src/xlslib/cbridge.cpp: xlsWorkbookSheet, xlsWorkbookSheetW, xlsWorksheetLabel, xlsWorksheetLabelW, xlsWorksheetNote, xlsFormulaPush*, xlsWorksheetValidateCell*, xlsWorksheetHyperLink*, xlsCell*, xlsXformatSet*, xlsFontSet*, xlsWorkbookProperty, xlsWorkbookDump", "xlslib/src/xlslib/globalrec.cpp: CGlobalRecords::char2str16, CGlobalRecords::wide2str16", "xlslib/src/xlslib/sheetrec.cpp: worksheet::FindCell, worksheet::AddCell, worksheet::validate, worksheet::hyperLink"]}
{"id": "C73", "title": "The getters answer what is saved", "statement": "At any moment of a program, whatever it did with formats and fonts before (shared them, changed them while cells have them, replaced them, gave them up and used them again), the getters tell what the file holds that would be saved at that moment: behind the number that a cell, format or font answers, a reader finds the record with every setting that its getters answer, and behind the font number of a format the font that it has. A format call on a cell changes no answer of any other cell, format or font; a setter of a format or font changes the answers of exactly the cells that have it.", "quantifier": "for all sequences of calls on a new workbook that hand over existing objects and arguments of the right types, all cells, formats and fonts, at most 65536 formats and 65535 fonts, within the limits of Modest at the save", "why_tests_cant": "The answers depend on copies, usage counts and searches for equal formats along the whole history; tests look at a few getters right after the setters, and never beside the saved records of a workbook with shared and revived formats.", "anchors": ["xlslib/src/xlslib/cell.cpp: cell_t::GetXFIndex, cell_t::SetXF, cell_t format and font operations", "xlslib/src/xlslib/extformat.cpp: xf_t getters and setters, xf_t::UnMarkUsed, CExtFormat", "xlslib/src/xlslib/font.cpp: font_t getters and setters, CFont", "xlslib/src/xlslib/globalrec.cpp: CGlobalRecords::findXF, AddXFormat, AddFont", "xlslib/src/xlslib/sheetrec.cpp: worksheet::rowheight, worksheet::colwidth"]}
{"id": "C74", "title": "Expression objects live as long as they are used, and no longer", "statement": "When formulas are built from expression objects and given to cells (with or without the instruction to destroy them automatically), every expression given away is destroyed exactly once: when its cell is written over or the workbook is destroyed, with all its arguments, whatever was added to it in between. No save and no other call reads an expression that is gone, each save writes the expressions of the cells as they are at that moment, and expressions that were not given away stay usable.", "quantifier": "for all sequences of making expressions of every kind, adding arguments, putting them into cells, overwriting cells, destroying them and saving, of any length and nesting", "why_tests_cant": "Use after destruction and double destruction depend on which objects are shared between which formulas along the whole program; they corrupt memory silently, so a test that passes shows nothing, and tests share nothing.", "anchors": ["xlslib/src/xlslib/formula_expr.cpp: expression_node_t::DestroyAST, n_ary_func_node_t::PushArg, expression_node_factory_t, operator nodes and function nodes", "xlslib/src/xlslib/formula_cell.cpp: formula_cell_t::~formula_cell_t, formula_cell_t::DumpData", "xlslib/src/xlslib/sheetrec.cpp: worksheet::formula, worksheet::AddCell, worksheet::~worksheet"]}
{"id": "C75", "title": "Everything a workbook makes is released exactly once, and no pointer to a released object is followed", "statement": "For every program that passes only pointers the library gave it and makes no call on a cell or comment whose place it wrote again: no call and no save makes the library read, write or delete an object that is gone, and deleting the workbook deletes every object that was ever made (sheets, cells, comments, column and row settings, merged areas, ranges, formulas, validations, links, fonts, number formats, formats, styles, sheet entries, document properties) exactly once. The pointer to a cell stays good until its place is written again, whatever else is called; calls that give the cell at one place give the same object.", "quantifier": "for all programs of calls in the C++ interface (sheets, fonts, formats, cells of all kinds, comments, sizes, ranges, formulas, validations, links, properties, saves, in any order and number) and all outcomes of the decisions that depend on use counts and equality of formats", "why_tests_cant": "Double deletion, leaks and dangling hints depend on the order of calls (which cell was remembered, which format was found equal and dropped, which list an object is in when the sheet ends); a test run shows one order, and use after release usually goes unnoticed in a test.", "anchors": ["xlslib/workbook.cpp: ~workbook, sheet, font, format, xformat, property", "xlslib/globalrec.cpp: CGlobalRecords, ~CGlobalRecords, findXF, DeleteLabelSST, fontdup", "xlslib/sheetrec.cpp: ~worksheet, AddCell, AddNote, FindCellOrMakeBlank, colwidth, rowheight, merge, rangegroup, formula_data, validate, hyperLink", "xlslib/cell.cpp: ~cell_t, SetXF, format and font calls", "xlslib/extformat.cpp: xfDup, MarkUsed, UnMarkUsed, SetFont, SetFormat", "xlslib/row.cpp: ~rowheight_t", "xlslib/label.cpp: ~label_t", "xlslib/HPSF.cpp: insert, ~hpsf_doc_t"]}
{"id": "C76", "title": "The file system inside a compound file behaves like a table of paths", "statement": "For every sequence of AddDirectory and AddFile calls with any paths: a call returns 0 and the path exists from then on, or it is refused with -2 (the path exists), -3 (the parent is a file) or -1 (the parent does not exist) and nothing changes. Afterwards the array of directory entries lists every path made exactly once, in order of creation and numbered from 1, with its name, type and (padded) contents; reading the tree of links of any directory gives exactly the names made in it, in order; a path that was made is found by GetNode. If only streams were accepted, the file system is the one made by the accepted calls alone.", "quantifier": "for all programs of AddDirectory and AddFile calls with arbitrary path strings and contents, nested to any depth", "why_tests_cant": "The links between entries depend on the order of insertions at every level, and every refused call must leave the tree alone; a test has one tree of one shape.", "anchors": ["oledoc/olefs.cpp: AddDirectory, AddFile, AddNode, GetNode, SearchNode, GetAllNodes, GetNumDataFiles", "oledoc/oledoc.cpp: DumpDepots, DumpOleFile", "common/stringtok.h: stringtok"]}
{"id": "C77", "title": "Every save of a workbook's life shows what its objects answer at that moment", "statement": "For any sequence of calls on a new workbook (sheets, cells, formats and fonts that may be shared between cells, changed while in use, given up and taken again, operations on ranges, columns, rows, comments, links, validations, formula objects that change after they are given away, document properties) and of saves, provided the calls hand over existing objects, nothing undefined happens; every save that can write hands out a complete file in which a reader finds every font, format and cell as its getters answer at the moment of that save, the formulas as they are then, and everything else as the calls before that save asked for; without comments earlier saves leave no trace, whatever was done with formats and fonts between them.", "quantifier": "for all sequences of calls and saves that hand over existing objects and stay within the limits of the file at each save", "why_tests_cant": "Sharing, changing in use and reusing formats is where the reference counts and copy-on-write of formats matter; their effect on a later save depends on the whole history before it, including ranges that copy formats cell by cell.", "anchors": ["xlslib/src/xlslib/extformat.cpp: xf_t::MarkUsed, xf_t::UnMarkUsed, CExtFormat::CExtFormat", "xlslib/src/xlslib/cell.cpp: cell_t::SetXF, cell_t::set_xf_common, cell_t::set_cell_font", "xlslib/src/xlslib/range.cpp: range::cellcolor, range::boxer", "xlslib/src/xlslib/workbook.cpp: workbook::Dump", "xlslib/src/xlslib/globalrec.cpp: CGlobalRecords::AddXFormat, CGlobalRecords::findXF, CGlobalRecords::GetDefaultXF"]}
{"id": "C78", "title": "An operation on a range changes the answers of its cells as its calls say, and of nothing else", "statement": "On a workbook that any program made by handing over existing objects (sheets, cells, formats, fonts, shared and changed in use at will), an operation of range on a rectangle is carried out without undefined behaviour. Afterwards every place inside the rectangle has a cell: the value that was there, or a blank cell; the getters of its format answer what the setters of that operation make of what they answered before (for a place without a cell, of what the default format answers); with a font function the getters of its font answer what that setter makes of them, however many cells share a font. The flags of given attributes only grow. All other places of all sheets, all other cells and all existing formats and fonts answer as before, except that a font function may also change a font object that a place inside has, and with it the other cells with that font.", "quantifier": "for all programs (any number of calls, up to 65536 sheets), all rectangles with rows and columns below 2^32 - 1, all operations of range with valid arguments; cellcolor and the block functions as long as there are at most 65536 formats afterwards", "why_tests_cant": "The outcome depends on how formats and fonts are shared when the operation begins, on use counts, on which formats were already made and on the numbers that a cache inside the operation uses; tests see a few such histories.", "anchors": ["xlslib/src/xlslib/range.cpp: range::cellcolor, SET_RANGE_FUNCTION, range::boxer", "xlslib/src/xlslib/cell.cpp: cell_t::SetXF, cell_t setters", "xlslib/src/xlslib/extformat.cpp: xf_t setters and copy constructor", "xlslib/src/xlslib/globalrec.cpp: CGlobalRecords::findXF"]}
{"id": "C79", "title": "A format turned into a style and back keeps its attributes, and its record says which of the two it is", "statement": "After any mixture of attribute setters and SetCellMode calls on a user format, the XF record that the file gets for it is a cell record if the last SetCellMode call (or, without one, the creation of the format) says cell, and a style record otherwise; every attribute (font, number format, alignment, indent, orientation, wrap, borders, pattern, colours, protection) is the one asked for last, whichever mode the format was in then; the record's six used-attribute flags mark the groups of attributes that were asked for, in the sense that the type of the record gives to them; and turning the format into a style and back changes nothing.", "quantifier": "all sequences of setter and SetCellMode calls with arguments of the API's types, in any order and number", "why_tests_cant": "The flags depend on the interleaving of two kinds of calls over an unbounded history; tests of single setters in one mode never see a mode change between two of them.", "anchors": ["xlslib/src/xlslib/extformat.cpp: xf_t::SetCellMode, xf_t::SetFlag, xf_t::SetBorderStyle, CExtFormat::CExtFormat", "xlslib/src/xlslib/extformat.h: class xf_t", "xlslib/src/xlslib/cbridge.cpp: xlsXformatSetCellMode"]}
{"id": "C80", "title": "Formats compare equal exactly if nothing tells them apart, and a copy equals its original", "statement": "Two formats for which operator== answers true answer every getter alike and are written as the same record; two formats built with setters that answer every getter alike, and in which the same groups of attributes were asked for, compare equal. A format made by xfDup answers every getter as its original does, compares equal to it, is written as it is, and is an object of its own: later calls on either leave the other alone.", "quantifier": "for all pairs of formats; for all histories of setters and SetCellMode on the original, and all calls on the copy and on the original afterwards, in any workbook", "why_tests_cant": "Equality walks over eighteen attributes one by one and copying runs setters with side effects on flags; a comparison left out or a flag not copied shows only for pairs of histories that differ in just that attribute, and cells share formats on the strength of this comparison.", "anchors": ["xlslib/src/xlslib/extformat.cpp: xf_t::operator==, xf_t::xf_t(const xf_t&)", "xlslib/src/xlslib/extformat.h: xf_t::xfDup", "xlslib/src/xlslib/globalrec.cpp: CGlobalRecords::findXF"]}
{"id": "C81", "title": "Results of formulas own their texts", "statement": "A result object of a formula can be given values of any kinds in any order and any number of times. It then answers with the value, text and options it was given last, it never reads or releases a text that is gone, and every text it made is released exactly once. A result must not be copied: a copy shares the text with the original.", "quantifier": "all sequences of creating, setting and destroying any number of result objects, with any values", "why_tests_cant": "Whether a text leaks, is released twice or is read after release depends on the order of kinds a caller passes through; tests try a few orders, and a double release often goes unnoticed.", "anchors": ["xlslib/src/xlslib/formula_estimate.cpp: estimated_formula_result_t::clear_value", "xlslib/src/xlslib/formula_estimate.cpp: estimated_formula_result_t::SetText", "xlslib/src/xlslib/formula_estimate.cpp: estimated_formula_result_t::GetEncodedValue", "xlslib/src/xlslib/formula_estimate.cpp: estimated_formula_result_t::GetStringValue", "xlslib/src/xlslib/formula_estimate.h: estimated_formula_result_t"]}
{"id": "C82", "title": "Stored results of functions have the kind the function yields", "statement": "A formula cell stores a result beside its expression, which programs show that do not calculate. For a formula made by a worksheet function this result is an error value or of the kind (truth value, number, text) that the function yields, it is no error value for the functions in daily use, a text result is followed by its text, and the formula is marked for calculation on opening.", "quantifier": "all worksheet functions with a fixed kind of result, all arguments, all cell positions and formats", "why_tests_cant": "There are about 300 functions and the library groups them by hand; tests look at a few of them and usually open the file in a program that recalculates at once.", "anchors": ["xlslib/src/xlslib/formula_expr.cpp: function_basenode_t::GetResultEstimate", "xlslib/src/xlslib/formula_cell.cpp: CFormula::CFormula", "xlslib/src/xlslib/formula_const.h: expr_function_code_t"]}
{"id": "C83", "title": "Number formats that are copied and changed stay what they were asked to be", "statement": "A program may copy its number formats, give them another text, assign them to cell formats, copy cell formats, and assign predefined formats or numbers, in any order. In the saved file there is one number format record per format with its last text, every cell format shows the number asked for or the text which the format it was assigned has at the time of the save, a new text does not reach copies of the format, and a copied cell format shows what its original shows. (Giving a format another number by hand breaks this for the cell formats that use it already.)", "quantifier": "all sequences of these calls, all texts, up to 65372 formats", "why_tests_cant": "The cell format keeps a number and a pointer which are updated by different calls; a mistake shows only for particular orders of copying, changing and assigning.", "anchors": ["xlslib/src/xlslib/format.h: format_t::formatDup, SetFormatStr, SetIndex", "xlslib/src/xlslib/format.cpp: format_t::format_t", "xlslib/src/xlslib/extformat.cpp: xf_t::SetFormat, SetFormatIndex, xf_t::xf_t(const xf_t&)", "xlslib/src/xlslib/globalrec.cpp: CGlobalRecords::AddFormat"]}
{"id": "C84", "title": "Usage of a cell format is the number of its cells", "statement": "Whatever a program did to fonts, formats, cells, rows and columns, asking a cell format for its usage answers the number of cells (rows and columns with a format included) that have this format now; for a built-in format two more. In particular it answers zero exactly if no cell has the format. (The usage of fonts does not have this property.)", "quantifier": "all sequences of calls that hand over existing formats, all formats", "why_tests_cant": "Counters go wrong by one in particular orders of sharing, parting, overwriting and copying, and stay wrong silently.", "anchors": ["xlslib/src/xlslib/extformat.cpp: xf_t::Usage, MarkUsed, UnMarkUsed", "xlslib/src/xlslib/cell.cpp: cell_t::SetXF, cell_t::~cell_t, set_cell_font", "xlslib/src/xlslib/globalrec.cpp: CGlobalRecords::findXF"]}
