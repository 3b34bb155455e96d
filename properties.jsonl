{"id": "C01", "title": "Tables stay well-formed under every history of calls", "statement": "Starting from NewTable(name) (or from any table that is already well-formed), after any finite sequence of the mutating calls SetName, RenameTable, AppendCol, DeleteCol(ByColIndex), RenameCol(ByColIndex), AppendRow(s), DeleteRow(s)/DeleteRowsAll, SetVal(ByColIndex), every typed setter, zero/NaN cell setters, ReorderCols(ByColIndex), Reverse, Shuffle*, Sort, SetSortKeys*, AppendColsFromTable, AppendRowsFromTable and OrderColsBySortKeys, whether each call succeeded or returned an error: column names are distinct and valid, there is one type per column, looking a column up by name gives exactly its position, every row has exactly one cell per column, and the dynamic type of every cell agrees with its column's type.", "quantifier": "all well-formed starting tables, all finite sequences of calls with arbitrary arguments", "why_tests_cant": "the set of call histories and argument values is infinite; a bad interaction may need an arbitrary interleaving", "anchors": ["gotables.go: NewTable, AppendCol, DeleteColByColIndex, RenameCol, AppendRow, DeleteRows, SetVal, ReorderColsByColIndex, AppendColsFromTable, AppendRowsFromTable", "helpers.go: Set<type>, SetRowCellsToZeroValue", "sort.go: Sort, SetSortKeys"]}
{"id": "C02", "title": "SwapCols keeps the table well-formed and moves the data with the column", "statement": "SwapCols(a,b) and SwapColsByColIndex(i,j) exchange the positions of two columns: afterwards reading any column by name gives the same values as before, and every cell still has its column's type.", "quantifier": "all well-formed tables and all pairs of distinct columns", "why_tests_cant": "a test with one table of same-typed columns can miss that cell data is not moved; the claim is about every table (it is FALSE of the code: the cells are not swapped)", "anchors": ["sort.go: SwapCols, SwapColsByColIndex"]}
{"id": "C03", "title": "A value written is the value read, and nothing else changes", "statement": "If SetVal(col,row,v) (or the ByColIndex form, or any typed setter) succeeds, then GetVal(col,row) returns v, and every other cell, all column names, types, the row count, the table name and the sort keys are unchanged.", "quantifier": "all well-formed tables, columns, rows and values", "why_tests_cant": "the frame condition ranges over every other cell of every table", "anchors": ["gotables.go: SetVal, SetValByColIndex, GetVal, GetValByColIndex", "helpers.go: Set<type>, Set<type>ByColIndex, Get<type>"]}
{"id": "C04", "title": "Writes are accepted exactly when cell exists and type matches", "statement": "SetVal succeeds if and only if the value is not nil, the column exists, the row is in range and the value's Go type is the column's type or its alias (uint8/byte, int32/rune, []uint8/[]byte); a rejected write leaves the table exactly as it was.", "quantifier": "all tables, columns, rows and values", "why_tests_cant": "decision over an unbounded argument space, both directions", "anchors": ["gotables.go: SetVal, SetValByColIndex, isAlias", "parser.go: typeAliasMap"]}
{"id": "C05", "title": "Typed getters never panic on a well-formed table", "statement": "On a well-formed table each Get<type>(col,row) and Get<type>ByColIndex(col,row) either returns the stored value or an error, never panics, for every column name, column index and row index; Set<type>(col,row,v) likewise. (Set<type>ByColIndex indexes the type slice without a range check, so it panics exactly when the column index is out of range.)", "quantifier": "all well-formed tables, all 20 types, all column names/indices and row indices", "why_tests_cant": "panic freedom over all integers and all tables", "anchors": ["helpers.go: Get<type>, Get<type>ByColIndex, Set<type>, Set<type>ByColIndex"]}
{"id": "C06", "title": "AppendRow(s) adds exactly the requested zero rows", "statement": "AppendRows(n) with n >= 0 on a named table succeeds, adds exactly n rows at the end, each new cell is the zero value of its column's type, and all existing cells are unchanged; with n < 0, or on a nil table placeholder, it fails and changes nothing.", "quantifier": "all well-formed tables and all n", "why_tests_cant": "unbounded n and table contents", "anchors": ["gotables.go: AppendRow, AppendRows", "helpers.go: SetRowCellsToZeroValue"]}
{"id": "C07", "title": "AppendCol adds one zero-valued column and disturbs nothing", "statement": "AppendCol(name,type) succeeds iff the table is named, the name is valid, the type is one of the 20 types and no such column exists; on success the new column is last, holds the type's zero value in every row, and every other column reads as before; on failure the table is unchanged.", "quantifier": "all well-formed tables, all names and types", "why_tests_cant": "unbounded tables, names", "anchors": ["gotables.go: AppendCol, SetColCellsToZeroValue", "helpers.go: SetCellToZeroValueByColIndex"]}
{"id": "C08", "title": "DeleteRows removes exactly the closed interval", "statement": "DeleteRows(first,last) succeeds iff 0 <= first <= last < RowCount; then the remaining rows are precisely the rows outside first..last in their original order; otherwise the table is unchanged. DeleteRow and DeleteRowsAll are the corresponding special cases.", "quantifier": "all tables, all integer pairs", "why_tests_cant": "off-by-one at every boundary of every size", "anchors": ["gotables.go: DeleteRow, DeleteRows, DeleteRowsAll"]}
{"id": "C09", "title": "DeleteCol removes exactly one column", "statement": "DeleteCol(name) succeeds iff the column exists; afterwards the name is gone, every other column keeps its relative order, type and all its values when read by name; otherwise the table is unchanged.", "quantifier": "all well-formed tables and names", "why_tests_cant": "unbounded tables; index shifting in name lookup must be right at all positions", "anchors": ["gotables.go: DeleteCol, DeleteColByColIndex"]}
{"id": "C10", "title": "RenameCol changes only the name", "statement": "RenameCol(old,new) succeeds iff old exists, new does not and new is a valid name; then every cell formerly read via old is read via new, every other column reads as before; otherwise the table is unchanged.", "quantifier": "all well-formed tables and names", "why_tests_cant": "unbounded tables and names", "anchors": ["gotables.go: RenameCol, RenameColByColIndex"]}
{"id": "C11", "title": "Sort keys survive structural edits: Sort never panics", "statement": "On any well-formed table whose sort keys were set with SetSortKeys, Sort() returns without panicking whatever other calls (RenameCol, DeleteCol, ...) were made in between.", "quantifier": "all histories of calls between SetSortKeys and Sort", "why_tests_cant": "needs the interaction of two unrelated calls (FALSE of the code: renaming or deleting a key column leaves a dangling key and Sort indexes a row with -1)", "anchors": ["gotables.go: RenameCol, DeleteColByColIndex", "sort.go: Sort, sortByKeys, SetSortKeys"]}
{"id": "C12", "title": "ReorderCols applies exactly the requested permutation", "statement": "ReorderColsByColIndex(order) succeeds iff order is a permutation of 0..ColCount-1, and ReorderCols(names) iff names is a rearrangement of the column names; then column i of the result is the old column order[i] (name, type and all cells), each column read by name is unchanged, and reordering by the inverse permutation restores the table; on failure nothing changes. NewTableReorderCols produces the same columns in a fresh table.", "quantifier": "all well-formed tables, all argument lists", "why_tests_cant": "all permutations of all sizes", "anchors": ["gotables.go: ReorderCols, ReorderColsByColIndex, NewTableReorderCols, NewTableReorderColsByColIndex"]}
{"id": "C13", "title": "Reverse reverses, and twice is identity", "statement": "Reverse() turns row i into row RowCount-1-i for every i, keeps everything else, and applying it twice restores the table.", "quantifier": "all tables of every size", "why_tests_cant": "loop with two moving indices must be right for every length, odd and even", "anchors": ["gotables.go: Reverse"]}
{"id": "C14", "title": "Shuffling only permutes rows", "statement": "ShuffleRandom and ShufflePseudorandom leave the table with a permutation of its original rows, whatever the random source returns.", "quantifier": "all tables, all random choices", "why_tests_cant": "randomness: all outcomes, not the sampled one", "anchors": ["gotables.go: ShuffleRandom, ShufflePseudorandom"]}
{"id": "C15", "title": "Name lookup and index lookup agree", "statement": "On a well-formed table, for every name: HasCol is true iff the name occurs in the column list; ColIndex(ColName(i)) = i for each valid i and ColName(ColIndex(n)) = n for each existing n; ColType(n) = ColTypeByColIndex(ColIndex(n)); GetVal(n,r) = GetValByColIndex(ColIndex(n),r); indices outside 0..ColCount-1 / 0..RowCount-1 give errors.", "quantifier": "all well-formed tables, names, indices", "why_tests_cant": "agreement of two lookup structures in all reachable states", "anchors": ["gotables.go: ColIndex, ColName, ColType, ColTypeByColIndex, HasCol, GetVal, GetValByColIndex"]}
{"id": "C16", "title": "Comparison functions are total orders", "statement": "For each sortable type except float32/float64 the comparison used by Sort/Search is a total order consistent with equality of values (strings: case-insensitive first, then byte order); for floats it is a total preorder on non-NaN values with -0 = +0. With NaN it is not transitive.", "quantifier": "all triples of values of each type", "why_tests_cant": "all values; transitivity over all triples", "anchors": ["sort.go: compare_* functions, compare_Alphabetic_string"]}
{"id": "C17", "title": "Sort yields a permutation sorted by the keys", "statement": "For a well-formed table whose sort keys name existing columns and whose float key cells are not NaN, Sort() leaves a permutation of the rows such that every earlier row is not greater than any later row in the lexicographic order of the keys with the reversed keys descending. (With NaN key cells no such guarantee.)", "quantifier": "all tables, all key lists incl. reversed keys, any sort.Sort implementation meeting its documented contract", "why_tests_cant": "unbounded inputs; strict-weak-order requirement of sort.Sort is a universally quantified law", "anchors": ["sort.go: Sort, sortByKeys, SetSortKeys, SetSortKeysReverse"]}
{"id": "C18", "title": "Search finds the first matching row or reports absence", "statement": "On a table sorted by its keys, Search/SearchFirst(values) returns the smallest row index whose key cells equal the values, and an error iff no row matches; it never panics.", "quantifier": "all sorted tables, all key lists, all search values of the right types", "why_tests_cant": "binary search boundaries for all sizes and duplicates", "anchors": ["sort.go: SearchFirst, searchByKeysFirst, searchValuesMatchRowValues, checkSearchArguments"]}
{"id": "C19", "title": "SearchLast finds the last matching row or reports absence", "statement": "On a table sorted by its keys, SearchLast(values) returns the largest row index whose key cells equal the values and an error iff no row matches. (FALSE of the code when the values sort before every row or the table is empty: the index is -1 and the call panics.)", "quantifier": "all sorted tables, key lists, values", "why_tests_cant": "needs values below the minimum; all sizes", "anchors": ["sort.go: SearchLast, searchByKeysLast, SearchLast(n,f)"]}
{"id": "C20", "title": "SearchRange returns exactly the block of matching rows", "statement": "On a sorted table SearchRange(values) returns first,last such that a row matches the values iff its index is in first..last, or an error iff nothing matches; it never panics.", "quantifier": "all sorted tables, key lists, values", "why_tests_cant": "all sizes and duplicate patterns", "anchors": ["sort.go: SearchRange"]}
{"id": "C21", "title": "SearchFirst(n,f) and SearchLast(n,f) are correct on monotone predicates", "statement": "For f false-then-true on 0..n-1 SearchFirst(n,f) is the least i in 0..n with f true from i on; for f true-then-false SearchLast(n,f) is the greatest i in -1..n-1 with f(i) true (or -1); f is only called with arguments in 0..n-1; both terminate.", "quantifier": "all n and all monotone predicates", "why_tests_cant": "all n, all predicates", "anchors": ["sort.go: SearchFirst(n,f), SearchLast(n,f)"]}
{"id": "C22", "title": "CompareRows agrees with the order used by Sort", "statement": "CompareRows(i,j) is negative, zero or positive exactly when row i is before, equivalent to or after row j in the order Sort() uses. (FALSE of the code for reversed keys, which CompareRows ignores.)", "quantifier": "all tables, keys, row pairs", "why_tests_cant": "needs reversed keys in combination; all values", "anchors": ["sort.go: CompareRows, sortByKeys"]}
{"id": "C23", "title": "SetSortKeys sets exactly the requested keys", "statement": "SetSortKeys(names) succeeds iff every name is a column of a sortable type, and then the sort keys are exactly these columns in this order, ascending; SetSortKeysReverse(names) flips exactly the named keys; SetSortKeysFromTable copies names, order and directions.", "quantifier": "all tables and name lists", "why_tests_cant": "unbounded lists", "anchors": ["sort.go: SetSortKeys, AppendSortKey, SetSortKeysReverse, SetSortKeysFromTable, GetSortKeysAsTable, DeleteSortKey"]}
{"id": "C24", "title": "OrderColsBySortKeys moves key columns to the front", "statement": "If the sort keys are distinct existing columns, OrderColsBySortKeys puts them first in key order followed by the other columns in their original order, with all values preserved by name; it never panics. (FALSE of the code with duplicate keys: it panics when there are more keys than columns.)", "quantifier": "all tables and key lists", "why_tests_cant": "unbounded; duplicates", "anchors": ["sort.go: OrderColsBySortKeys, IsSortKey"]}
{"id": "C25", "title": "Equals is an equivalence and means same content up to column order", "statement": "For well-formed tables without nested tables, Equals(t1,t2) is true iff they have the same name, nil-ness, row count, the same set of (column name, type) and equal cells at each (name,row) (float cells compared as IEEE floats, so a NaN cell makes a table unequal to itself); hence it is symmetric and transitive, reflexive iff there are no NaN cells, and insensitive to column order.", "quantifier": "all pairs/triples of tables", "why_tests_cant": "relational laws over all pairs and triples", "anchors": ["gotables.go: Equals"]}
{"id": "C26", "title": "Equals ignores column order also for nested tables", "statement": "As documented ('column order need NOT match'), a table with *Table columns equals the same table with its columns reordered. (FALSE of the code: nested tables of the second table are fetched by the first table's column index.)", "quantifier": "all tables with nested tables, all column orders", "why_tests_cant": "needs a nested table and a reorder", "anchors": ["gotables.go: Equals"]}
{"id": "C27", "title": "Copy yields an equal table", "statement": "Copy() of a well-formed flat table succeeds and the result has the same name, columns in the same order, types and cells, and later edits to either do not affect the other; it does not carry sort keys or struct shape.", "quantifier": "all well-formed flat tables, all later edits", "why_tests_cant": "all tables", "anchors": ["gotables.go: Copy, AppendColsFromTable, AppendRowsFromTable"]}
{"id": "C28", "title": "NewTableFromRows extracts exactly the requested rows", "statement": "NewTableFromRows(name,first,last) on a well-formed table with at least one column: if 0 <= first <= last < RowCount (and the name is valid) the new table has the same columns and exactly rows first..last in order; if some row of a non-empty range is out of bounds it fails; the source table is never modified. NewTableFromRowsBySearchRange is the same with the matching block.", "quantifier": "all tables and ranges", "why_tests_cant": "all ranges incl. out of bounds", "anchors": ["gotables.go: NewTableFromRows, AppendRowsFromTable, NewTableFromRowsBySearchRange"]}
{"id": "C29", "title": "AppendRowsFromTable appends the requested rows or nothing", "statement": "If AppendRowsFromTable(from,first,last) succeeds, the receiver has exactly last-first+1 more rows holding from's values by column name and zero values elsewhere, earlier rows are untouched; if it fails the receiver is unchanged. (Second half FALSE of the code: on failure partially filled rows remain.)", "quantifier": "all pairs of tables, all ranges", "why_tests_cant": "atomicity over all failure points", "anchors": ["gotables.go: AppendRowsFromTable"]}
{"id": "C30", "title": "AppendColsFromTable adds exactly the missing columns", "statement": "If AppendColsFromTable(from) succeeds, the receiver's columns are its old ones followed by from's columns that were missing, in from's order, types agree on shared columns, new cells are zero, old cells unchanged; it fails iff some shared column has a different type (or a table is a nil placeholder).", "quantifier": "all pairs of tables", "why_tests_cant": "all pairs of schemas", "anchors": ["gotables.go: AppendColsFromTable"]}
{"id": "C31", "title": "A TableSet behaves as an ordered map with unique names", "statement": "Under every sequence of AppendTable, RenameTable, DeleteTable(ByTableIndex), GetTable, TableIndex, HasTable the set behaves like an ordered list of distinctly named tables: appending an existing name fails, lookup by name finds the one table, deletion removes exactly it, renaming keeps position; failures change nothing.", "quantifier": "all call sequences, names, indices", "why_tests_cant": "all histories", "anchors": ["gotables.go: TableSet.AppendTable, GetTable, HasTable, RenameTable, DeleteTable, DeleteTableByTableIndex, TableIndex, GetTableByTableIndex"]}
{"id": "C32", "title": "Integers printed in decimal are read back exactly", "statement": "For every value of every integer type, the text written by StringUnpadded for a cell parses back (by the parser's integer rules incl. 0b/0o/0x and leading-zero octal handling) to the same value; text outside the type's range is rejected.", "quantifier": "all values of all 10 integer types", "why_tests_cant": "2^64 values; boundary and octal-prefix interplay", "anchors": ["parser.go: parseInt, parseUint, getRowSlice", "gotables.go: _String"]}
{"id": "C33", "title": "Integer literal syntax is interpreted as documented", "statement": "An integer token is accepted with exactly the value its notation denotes: 0b/0o/0x prefixes base 2/8/16, a leading 0 (len >= 2, unsigned text) base 8, otherwise base 10 with optional sign, and rejected iff a digit is invalid or the value is out of range of the column type.", "quantifier": "all tokens", "why_tests_cant": "all strings", "anchors": ["parser.go: parseInt, parseUint"]}
{"id": "C34", "title": "Quoted strings round-trip for every byte sequence", "statement": "For every Go string (including quotes, backslashes, newlines, control characters, non-ASCII and invalid UTF-8), writing it quoted in a table row and parsing the row gives back the identical string, regardless of what follows on the row.", "quantifier": "all byte strings, all continuations of the row", "why_tests_cant": "infinitely many strings; escaping bugs hide in rare bytes", "anchors": ["gotables.go: _String, StringPadded", "parser.go: getRowSlice (string case), stringRegexp"]}
{"id": "C35", "title": "Runes round-trip for every code point", "statement": "For every valid Unicode code point, a rune cell written by StringUnpadded is read back as the same code point, in any position of a row.", "quantifier": "all 1,112,064 code points, all row contexts", "why_tests_cant": "all code points in all contexts (the rune regexp is unanchored)", "anchors": ["gotables.go: _String", "parser.go: parseRune, runeRegexp, getRowSlice"]}
{"id": "C36", "title": "Table text round-trip (unpadded)", "statement": "For every well-formed table in table shape with an ASCII name whose columns have types string, bool, rune (code points), the integer types (except byte) and float types (finite or NaN), StringUnpadded() parses with NewTableFromString to a table with the same name, columns, types and cells. (Outside these conditions it is false: infinities are refused, a table with rows but no columns loses its rows, and in struct shape strings are not escaped.)", "quantifier": "all tables", "why_tests_cant": "all tables, all cell values", "anchors": ["gotables.go: StringUnpadded, _String", "parser.go: parseString, getRowSlice"]}
{"id": "C37", "title": "TableSet text round-trip (unpadded)", "statement": "For every set of such tables with distinct names and at least one column each, StringUnpadded() of the set parses back to the same tables in the same order. (The set's own name is not written by StringUnpadded.)", "quantifier": "all table sets", "why_tests_cant": "blank-line state machine over all sequences", "anchors": ["gotables.go: TableSet.StringUnpadded, TableSet._String", "parser.go: parseString"]}
{"id": "C38", "title": "Padded String() loses no integer value", "statement": "String() of a table, parsed back, gives the same value in every integer cell. (FALSE of the code: integer cells go through a float64, so values beyond 2^53 in magnitude change.)", "quantifier": "all integer values", "why_tests_cant": "needs values above 2^53", "anchors": ["gotables.go: StringPadded, printMatrix"]}
{"id": "C39", "title": "The parser never panics and only returns valid tables", "statement": "For every input text, NewTableSetFromString returns either an error or a set whose tables have distinct valid names and are all well-formed, and it terminates.", "quantifier": "all byte strings as input", "why_tests_cant": "all inputs (fuzzing samples only)", "anchors": ["parser.go: parseString, getRowSlice, getColNames, getColTypes, getTableName"]}
{"id": "C40", "title": "Every name the API accepts can be parsed back", "statement": "If NewTable/SetName/AppendCol accept a name then the text format accepts it too. (FALSE of the code: names are checked byte by byte with Latin-1 letter rules while the parser demands ASCII.) For ASCII names both agree.", "quantifier": "all byte strings", "why_tests_cant": "all names; needs specific non-ASCII byte pairs", "anchors": ["parser.go: isValidName, IsValidTableName, IsValidColName, tableNameRegexp"]}
{"id": "C41", "title": "Merge combines matching rows by key", "statement": "For two non-empty tables with the same key columns (those of the receiver, or if it has none those of the argument), whose key cells are not NaN and whose shared columns have equal types, Merge succeeds exactly if some key value occurs more than once and every column is of a type that can be merged (not byte, rune, slices, tables or times). The result has the key columns first, then the other columns of both tables, exactly one row per distinct key value of the two inputs, and is sorted by key. Otherwise it is an error. (Tables without a repeated key value therefore cannot be merged.) If one table has no rows, the other one itself is returned, sorted.", "quantifier": "all pairs of tables, keys, contents", "why_tests_cant": "which keys repeat, where, and in which table; all column layouts and row orders", "anchors": ["merge.go: Merge"]}
{"id": "C42", "title": "Merging two cells prefers information", "statement": "When two tables with distinct keys each are merged: a cell that is neither zero nor NaN wins over a zero or NaN one, zero wins over NaN, the first table wins if both are neither zero nor NaN, and the merged value is always one of the two inputs. A row whose key is in one table only keeps its values, and has NaN (float columns) or the zero value in columns of the other table.", "quantifier": "all pairs of tables, all pairs of values of each mergeable type", "why_tests_cant": "all value pairs incl. NaN and zeros, in all positions", "anchors": ["merge.go: Merge"]}
{"id": "C43", "title": "Gob export/import preserves tables without sort keys and fails safely with them", "statement": "A table without sort keys is preserved by GobEncode followed by GobDecodeTable (name, columns, shape, cells), and so is a table set with its name, file name and tables in order; existing tables are not changed; a decoded table is always rectangular with distinct valid column names. Encoding a table with sort keys must not panic (this last part is FALSE of the code).", "quantifier": "all tables without nested tables and times; all table sets of such; all encoded bytes", "why_tests_cant": "needs sort keys set; all contents", "anchors": ["gob.go: exportTable, importTable, GobEncode, GobDecodeTable, GobDecodeTableSet"]}
{"id": "C44", "title": "JSON numbers preserve 64-bit integers", "statement": "Writing a table as JSON and reading it back preserves every integer cell. (FALSE of the code beyond 2^53 because numbers are decoded through float64; TRUE up to 2^53.)", "quantifier": "all integer values", "why_tests_cant": "needs magnitudes above 2^53", "anchors": ["json.go: newTableFromJSON_recursive"]}
{"id": "C45", "title": "CSV has one record per row with one field per column", "statement": "GetTableAsCSV writes one header record and one record per row, each with exactly ColCount fields, in order; reading it back with a standard CSV reader gives the cell texts, NaN as empty.", "quantifier": "all tables and cell texts (embedded quotes, commas, newlines)", "why_tests_cant": "all texts", "anchors": ["gotables.go: GetTableAsCSV"]}
{"id": "C46", "title": "Walk terminates and visits each cell once, even on cyclic tables", "statement": "Walk on any table graph, including self-containing tables, terminates; on an acyclic graph without sharing it visits every table once and every cell exactly once in row-major order; on revisiting a table it reports an error when walking safely.", "quantifier": "all table graphs", "why_tests_cant": "all graphs incl. cycles", "anchors": ["tree.go: Walk"]}
{"id": "C47", "title": "HasCircularReference is exact", "statement": "HasCircularReference() is true iff some table is reachable from itself through nested cells (or shared). (FALSE of the code: a two-level acyclic nesting is reported as circular, so Copy refuses it.)", "quantifier": "all table graphs", "why_tests_cant": "needs two-level nesting", "anchors": ["tree.go: HasCircularReference, IsValidTableNesting"]}
{"id": "C48", "title": "CopyDeep returns an independent equal table", "statement": "CopyDeep returns a table equal to the receiver that shares no table with it and leaves the receiver unchanged. (FALSE of the code.)", "quantifier": "all table trees", "why_tests_cant": "aliasing", "anchors": ["tree.go: CopyDeep"]}
{"id": "C49", "title": "Setting sort keys to a wrong column keeps old keys", "statement": "If SetSortKeys fails the previous sort keys are kept. (FALSE of the code: they are already replaced.)", "quantifier": "all tables and lists", "why_tests_cant": "failure atomicity", "anchors": ["sort.go: SetSortKeys"]}
{"id": "C50", "title": "Trailing-zero trimming never changes a number", "statement": "padding or trimming trailing zeros of a decimal number text never changes its numeric value, keeps at least one digit after a decimal point and never touches text without a decimal point.", "quantifier": "all decimal texts", "why_tests_cant": "all strings", "anchors": ["gotables.go: padTrailingZeros, trimTrailingZeros"]}
{"id": "C51", "title": "Uint8SliceEquals is equality", "statement": "Uint8SliceEquals(a,b) is true iff both are nil or both non-nil with the same bytes; an error is returned iff the result is false.", "quantifier": "all byte slices incl. nil", "why_tests_cant": "all slices", "anchors": ["gotables.go: Uint8SliceEquals"]}
{"id": "C52", "title": "Generated accessor names exist", "statement": "For every column type the accessor name used by the code generators is the name of an existing getter/setter. (FALSE of the code for *Table and time.Time.)", "quantifier": "all 20 column types", "why_tests_cant": "enumeration of types", "anchors": ["generate.go: getterName, setterName, accessorName, typeProper"]}
{"id": "C53", "title": "IsValidTable accepts every reachable flat table", "statement": "IsValidTable() returns true for each named table reachable by the API without nested tables, and if it returns false it also returns an error. If it returns true for any table (such as a decoded one), its names are valid and distinct, there is a type for each name and each row has a cell for each column.", "quantifier": "all reachable tables", "why_tests_cant": "all histories", "anchors": ["gotables.go: IsValidTable, isValidColNamesMap"]}
{"id": "C54", "title": "Failed calls leave the table unchanged", "statement": "If AppendCol, DeleteCol, RenameCol, AppendRows, DeleteRows, SetVal, SetName, ReorderCols or a typed setter returns an error, the table is exactly as before.", "quantifier": "all tables and arguments", "why_tests_cant": "all failing arguments", "anchors": ["gotables.go, helpers.go: the listed methods"]}
{"id": "C55", "title": "Whole table sets: Equals, IsValidTableSet, Walk and Copy", "statement": "TableSet.Equals is true iff both sets have as many tables and the tables at the same positions are equal; IsValidTableSet is true iff every table is valid; TableSet.Walk visits the tables in order, each completely; TableSet.Copy of flat tables gives a set with the same name, file name and, in the same order, new tables with the same content, leaving the originals alone.", "quantifier": "all table sets and tables", "why_tests_cant": "all sets, all tables, any nesting", "anchors": ["gotables.go: TableSet.Copy, TableSet.Equals, IsValidTableSet", "tree.go: TableSet.Walk"]}
{"id": "C56", "title": "TableSet String() round-trip with the set's name", "statement": "For every set of tables with distinct names that C38 covers, whose own name is empty or an ASCII identifier, String() of the set parses with NewTableSetFromString to a set with the same name and the same tables in the same order. (SetName accepts any text for a set; with other names the text cannot be parsed.)", "quantifier": "all table sets", "why_tests_cant": "padding and blank lines for all sequences of tables", "anchors": ["gotables.go: TableSet.String, TableSet.StringPadded, StringPadded, printMatrix", "parser.go: parseString, getTableSetName"]}
{"id": "C57", "title": "Padded text keeps floats", "statement": "String() gives the floats of a column a common number of digits after the point and blanks out zeros at the end; NewTableFromString reads back every finite float32 and float64 with the same bits. (FALSE of the code for 27 powers of two of type float64 and one of type float32, whose shortest decimal is not the nearest float of a longer one: they come back as a neighbour.)", "quantifier": "all finite floats, all columns of floats", "why_tests_cant": "2^64 floats times all column precisions; the 28 exceptions are not found by sampling", "anchors": ["gotables.go: StringPadded, setWidths, padTrailingZeros, GetValAsStringByColIndex", "parser.go: getRowSlice"]}
{"id": "C58", "title": "Rows with too many or too few values are refused", "statement": "If a row of a table text has fewer values than there are columns, or any non-blank text after the last of its values, NewTableFromString returns an error: no value is silently ignored or made up.", "quantifier": "all tables, all rows, all surplus texts, whatever follows", "why_tests_cant": "all values and texts in all columns", "anchors": ["parser.go: getRowSlice, parseString"]}
{"id": "C59", "title": "JSON round-trip of tables and table sets", "statement": "For every table (nested tables included) with ASCII names whose texts are of characters that JSON can express, whose floats are finite (float32 values not being changed by rounding twice), and whose integers have at most 53 significant bits, the text of GetTableAsJSON is read by NewTableFromJSON as the same table: same names, shape, columns and rows, nested tables the same in turn, made of new tables; sort keys are dropped. Likewise GetTableSetAsJSON and NewTableSetFromJSON, with the set's name and the order of tables.", "quantifier": "all tables and sets, any nesting, any memory they are read into", "why_tests_cant": "all contents and all nestings", "anchors": ["json.go: GetTableAsJSON, getTableAsJSON_recursive, GetTableSetAsJSON, NewTableSetFromJSON, NewTableFromJSON, newTableFromJSON_recursive"]}
{"id": "C60", "title": "Reading JSON never panics and yields well-formed tables", "statement": "For every text, NewTableSetFromJSON and NewTableFromJSON either return tables or an error; they never panic. Whatever is read, all new tables are well-formed, nested tables are new and newer than the tables they are in, existing tables are unchanged, and the tables of a set exist, are not nil tables and have distinct names. (The first part is FALSE of the code: valid JSON texts of another shape, e.g. a row that is not an array, make it panic.)", "quantifier": "all texts, all memories", "why_tests_cant": "all JSON texts, malformed ones included", "anchors": ["json.go: NewTableSetFromJSON, NewTableFromJSON, newTableFromJSON_recursive"]}
{"id": "C61", "title": "Which tables can be written as JSON", "statement": "GetTableAsJSON succeeds exactly if the table is not nested in itself and no table is nested in it in two cells; otherwise it returns an error, and it always ends. So no table that contains itself, directly or not, is written. (The error says 'circular reference' also of tables that are merely stored in two cells, which are not circular.)", "quantifier": "all memories of well-formed tables, cyclic ones included", "why_tests_cant": "all graphs of tables; a wrong cycle check does not end", "anchors": ["json.go: GetTableAsJSON, getTableAsJSON_private, getTableAsJSON_recursive"]}
{"id": "C62", "title": "Which values survive being written as JSON", "statement": "For every table with ASCII names that GetTableAsJSON writes, nested tables included, the text is valid JSON, and NewTableFromJSON can read it. (FALSE of the code: it is valid exactly if every string and rune value consists of characters that have the same spelling in Go and JSON and every float is finite. Otherwise NewTableFromJSON returns an error and nothing can be read. A new row of a rune column has the value 0 and is of this kind.) Where it is valid JSON it is read back with the same names, columns, rows and nested tables, values being the same but for integers beyond 53 bits, invalid code points (read as U+FFFD) and float32 values that are rounded twice.", "quantifier": "all tables, all values, any nesting", "why_tests_cant": "2^64 floats, all strings, all nestings", "anchors": ["json.go: GetTableAsJSON, getTableAsJSON_recursive, NewTableFromJSON, newTableFromJSON_recursive"]}
{"id": "C63", "title": "SortUnique keeps one row per key", "statement": "SortUnique on a table whose sort keys are distinct sortable columns without NaN returns a new table with one row for each key that occurs, sorted by the keys; every cell is a value of a row with that key, and a zero or NaN only if no such row has a better value; if the keys were already distinct the rows are those of the table. The receiver keeps its rows. It succeeds exactly if all columns have a type whose values can be merged. (Although 'the returned table is new', a table without rows is returned itself.)", "quantifier": "all tables, all keys and directions", "why_tests_cant": "all contents and all multisets of keys", "anchors": ["sort.go: SortUnique"]}
{"id": "C64", "title": "Nest stores with every row the matching rows of the other table", "statement": "For tables sharing the key columns of the receiver (no NaN), with a new column name in ASCII and an argument whose values the text format preserves: if every row of the receiver has a row of the argument with the same key then Nest succeeds; the receiver is then sorted by its keys and has a last column of texts, each of which NewTableFromString reads as a table with the name of the column, the columns of the argument and exactly those of its rows that have the key of this row. If some row has no match it returns an error. The argument gets the receiver's sort keys and is sorted, keeping its rows.", "quantifier": "all tables, keys, directions and multiplicities", "why_tests_cant": "all contents; the text is a composition of sorting, searching, extracting, writing and reading", "anchors": ["nest.go: Nest"]}
{"id": "C65", "title": "GetSortKeysAsTable lists the sort keys", "statement": "GetSortKeysAsTable returns a table SortKeys with columns index, colName, colType, reverse and one row for each sort key, in order, from which the column and direction of each key can be read.", "quantifier": "all tables and sort keys", "why_tests_cant": "all numbers of keys", "anchors": ["sort.go: GetSortKeysAsTable"]}
{"id": "C66", "title": "GetTableSetAsMap describes the set", "statement": "If no table of a set, nor any nested in one, is nested in itself, GetTableSetAsMap succeeds and its map has the name of the set and for each table, in order, its name, its shape if it is a struct, its columns with their types, and every value in its row and column, with nested tables described in the same way, whether or not a table is stored in several cells. If some table is nested in itself there is no end to the recursion.", "quantifier": "all table sets, nested to any depth, with sharing and with cycles", "why_tests_cant": "all graphs of nested tables; non-termination is not observable by a test", "anchors": ["yaml.go: GetTableSetAsMap, getTableAsMap"]}
{"id": "C67", "title": "Reading YAML gives the tables it was written from", "statement": "For a set of tables of different names, none nested in itself, whose strings and times yaml.v3 preserves and whose float64 values are not whole numbers below a million: GetTableSetAsYAML gives a text from which NewTableSetFromYAML makes a set of the same name with the same tables in the same order: names, shapes, columns, types, values, nested tables. Tables that existed are unchanged.", "quantifier": "all such sets, all values of all column types", "why_tests_cant": "all values and all nestings; floats pass through two decimal conversions", "anchors": ["yaml.go: GetTableSetAsYAML, NewTableSetFromYAML, newTableFromYAML_recursive, getTableAsMap, trimQuote"]}
{"id": "C68", "title": "What is written as YAML can be read", "statement": "A text that GetTableSetAsYAML has written for a set of tables, none nested in itself, whose strings and times yaml.v3 preserves, is read by NewTableSetFromYAML without an error.", "quantifier": "all such sets", "why_tests_cant": "all values of all column types, at any depth of nesting", "anchors": ["yaml.go: newTableFromYAML_recursive, getTableAsMap"]}
{"id": "C69", "title": "Reading any YAML gives valid tables or an error", "statement": "Whatever the text, NewTableSetFromYAML returns an error or a set of new, valid tables with distinct names, none nested in itself, and leaves all other tables unchanged; it never panics.", "quantifier": "all texts", "why_tests_cant": "all texts of all shapes", "anchors": ["yaml.go: NewTableSetFromYAML, newTableFromYAML_recursive"]}
{"id": "C70", "title": "No two tables share memory", "statement": "Whatever sequence of calls creates and changes tables, afterwards every table has the contents it would have if its slices and its map were values of its own: no array and no map is used by two tables, or by two rows of a table, so that no call on one table, in place or not, changes another.", "quantifier": "all sequences of calls on any number of tables, all ways in which slices grow", "why_tests_cant": "aliasing shows only for particular lengths and capacities, after particular histories", "anchors": ["gotables.go: NewNilTable, AppendCol, AppendRow, DeleteRows, DeleteColByColIndex, ReorderColsByColIndex, AppendColsFromTable, AppendRowsFromTable", "sort.go: SetSortKeys, DeleteSortKey, Sort"]}
{"id": "C71", "title": "One table out of a text of several", "statement": "Asking a text (table text or JSON) for a table by its name, or by its index, gives exactly the table that the whole set would have under that name or at that index, or an error; asking for the only table succeeds exactly if there is one, and the form that must succeed panics otherwise. Every table of a set that was written is found again so.", "quantifier": "all texts, names and indices; all sets within the conditions of C56 and C59", "why_tests_cant": "texts of several tables with all their names are unboundedly many", "anchors": ["gotables.go: NewTableFromString, NewTableFromStringMustMake, NewTableFromStringByTableName, NewTableFromStringByTableIndex, GetTable, GetTableByTableIndex", "json.go: NewTableFromJSONByTableName"]}
{"id": "C72", "title": "Tables in files", "statement": "A set or a table written to a file is read back from that file as it was, with the name of the file. Writing replaces that file and leaves the others alone, and a failed write changes nothing. A missing file, a directory and a text that is not tables are errors, never panics.", "quantifier": "all tables within the conditions of C38 and C56, all states of the disk, all contents", "why_tests_cant": "the contents of files are unbounded, and what files hold depends on earlier writes", "anchors": ["gotables.go: WriteFile, NewTableFromFile, NewTableFromFileByTableName", "parser.go: parseFile, NewTableSetFromFile"]}
{"id": "C73", "title": "A column as texts", "statement": "The values of a column come as texts in the order of the rows, each the text of its value, and joining them puts the separator between them and nowhere else. A column that the table does not have is an error.", "quantifier": "all well-formed tables, columns and separators", "why_tests_cant": "tables and separators are unbounded, and the case of no rows is easily missed", "anchors": ["gotables.go: GetValAsString, GetValAsStringByColIndex, GetColValsAsStrings, JoinColVals, JoinColValsByColIndex"]}
{"id": "C74", "title": "Asking about cells and columns, and the forms that panic", "statement": "A table says it has a cell exactly if both the column and the row exist; it says what type a column has, and that a column holds tables, exactly if that is its type. The getters and setters that must succeed return or set what the plain ones do and panic exactly when these fail.", "quantifier": "all well-formed tables, columns, rows (negative ones too) and values", "why_tests_cant": "arguments are unbounded; the panicking forms are a second copy of the interface", "anchors": ["gotables.go: HasCell, HasCellByColIndex, IsColType, IsColTypeByColIndex, IsTableCol, IsTableColByColIndex, GetValMustGet, GetValByColIndexMustGet", "helpers.go: Set...MustSet, Get...MustGet"]}
{"id": "C75", "title": "Times come back from their texts", "statement": "A time that is stored in a table is the same instant, with the same nanoseconds and the same zone offset, after the table was written as text or JSON and read back.", "quantifier": "all times: every instant, every fraction of a second, every zone", "why_tests_cant": "the calendar has cycles of 400 years, and fractions of a second have a billion values", "anchors": ["gotables.go: String, StringPadded, GetValAsString", "parser.go: rfc3339TimePattern, getRowSlice", "json.go: GetTableAsJSON, NewTableFromJSON"]}
{"id": "C76", "title": "NewTreeTable adds levels to a tree of tables and changes no other table", "statement": "NewTreeTable(depth) replicates a table into its own cells of type *Table that stand for no table, depth levels deep, and returns the table unchanged if the depth is 0 or it has no such columns. No other table that existed before the call is changed; a negative depth is refused.", "quantifier": "all tables in memory, all depths", "why_tests_cant": "the effect on every other table in memory is a statement about all of them, and the promise is about every cell and depth", "anchors": ["tree.go: NewTreeTable, newTreeTable_recursive", "helpers.go: SetTable", "gotables.go: Copy"]}
{"id": "C77", "title": "ParentTable is the table that holds the table", "statement": "ParentTable of a nested table is the table in one of whose cells it is stored.", "quantifier": "all memories, all ways to store tables: SetTable, SetTableByColIndex, new rows and columns, copies, texts that are read", "why_tests_cant": "agreement of parents and cells is an invariant of all histories, and one step that breaks it is enough", "anchors": ["gotables.go: ParentTable, AppendRow, AppendCol, Copy", "helpers.go: SetTable, SetTableByColIndex, SetRowCellsToZeroValue, SetCellToZeroValueByColIndex", "parser.go: getRowSlice"]}
{"id": "C78", "title": "JSON with line breaks is read like JSON without", "statement": "GetTableAsJSONIndent and GetTableSetAsJSONIndent give a text that NewTableFromJSON, NewTableSetFromJSON and NewTableFromJSONByTableName read exactly as they read the text of the form without Indent: the same tables, or the same error. The two texts differ in white space only. Where a value cannot be spelled in JSON the form with Indent reports an error and gives no text.", "quantifier": "all tables and sets of tables, nested tables at any depth, all strings in them", "why_tests_cant": "white space may be added between tokens but not inside strings, whatever quotes, brackets and backslashes the strings contain; samples cover a few strings", "anchors": ["json.go: GetTableAsJSONIndent, GetTableSetAsJSONIndent, indentJSON, NewTableSetFromJSON, NewTableFromJSON"]}
{"id": "C79", "title": "StringNested prints every nested table once and changes nothing", "statement": "StringNested of a table gives the text of the table and of every table nested in it, at any depth, each once and before those nested in it, under its name followed by the way to it: table, column and row of every step. It changes no table. If a table is nested in itself it does not return.", "quantifier": "all tables, all trees of nested tables of any depth", "why_tests_cant": "which tables are visited, under which names and in which order depends on the whole tree, and what is left alone on everything else in memory", "anchors": ["gotables.go: StringNested, stringNested_recursive, SetName"]}
{"id": "C80", "title": "String has a text for every table, and its columns line up", "statement": "String() answers every valid table with a text that is not empty, and in the text of rows every column begins in all lines - names, types and cells - at the same code point and has the same width; numbers are right-aligned, everything else is left-aligned, and in a column of floats the decimal points stand under each other. StringUnpadded answers every valid table with a text that is not empty.", "quantifier": "all tables, all contents of cells: all floats, all strings", "why_tests_cant": "the width is computed from the shortest texts of the cells, but floats are written rounded to the precision of the column and integers as floats: that no value grows by a digit is a fact about rounding of all 2^64 floats", "anchors": ["gotables.go: String, StringPadded, printMatrix, setWidths, preNumberOf, precisionOf, padTrailingZeros, StringUnpadded, _String"]}
{"id": "C81", "title": "The generated struct type and functions compile and carry tables to structs and back", "statement": "For every table, GenerateTypeStruct, GenerateTypeStructSliceFromTable and GenerateTypeStructSliceToTable write Go declarations that compile together (with fmt and gotables imported). The generated function from tables, given any table that has the columns with their types, returns a struct for each row with the values of the row, and an error for a table with rows that lacks one of them; the function to tables returns a table of the given name, columns and types with a row for each struct; there and back nothing changes, in either order. A nil argument gives an error.", "quantifier": "all tables that code is generated from, all tables and slices of structs that the generated functions are called with", "why_tests_cant": "generated text must be compiled and run for every table there may be: tests compile one or two; which names break the text is a question about scopes in Go", "anchors": ["generate.go: GenerateTypeStruct, GenerateTypeStructSliceFromTable, GenerateTypeStructSliceToTable, stringSliceToLiteral, getterName, setterName", "gotables.go: GetColInfoAsSlices, NewTableFromMetadata"]}
{"id": "C82", "title": "Rows of table text are read by a grammar, and nothing of them is ignored", "statement": "For every table heading and all lines that follow it, NewTableFromString succeeds if and only if each line is a sequence of values of the column types by the documented syntax (integers with prefixes, quoted strings and runes with Go's escapes, true and false, slices, floats, names of nested tables, RFC 3339 times), with spaces or tabs between them; the rows of the table are then exactly these values, a float being the nearest to the number that is written; otherwise there is an error, never a panic. No part of a line is ignored.", "quantifier": "all headings, all numbers of lines, all bytes in them", "why_tests_cant": "the scanner is a set of regular expressions applied one after the other to the rest of the line; which lines they accept in all combinations of column types and what they silently skip cannot be found by examples; the nearest float is a statement about all other floats", "anchors": ["parser.go: getRowSlice, the regular expressions at its head, parseInt, parseUint, splitSliceString, parseString", "gotables.go: NewTableFromString"]}
{"id": "C83", "title": "A text is read by a grammar", "statement": "For every sequence of bytes, NewTableSetFromString returns a table set if and only if the text follows the syntax: lines, of which the white space around them and those that begin with # do not count; at most once the name of the set in double brackets; tables that begin with a name in brackets and end with a blank line or the end of the text, being either a line of column names, a line of as many column types and rows of values, or a struct with a column per line, with or without values, or nothing; all names of tables distinct, all names of columns of a table distinct. The set then has exactly these tables in this order, with exactly these columns and rows. Every other text is an error, never a panic.", "quantifier": "all texts, all memories", "why_tests_cant": "the parser is a state machine over lines with a state for each part of a table and a shape that is guessed from the first line; which sequences of lines it accepts in which state is a question about infinitely many texts", "anchors": ["parser.go: parseString, getTableShape, isValidTableName, getTableSetName, getTableName", "gotables.go: NewTableSetFromString, NewTableFromString"]}
{"id": "C84", "title": "The line that an error names", "statement": "If NewTableSetFromString returns an error that names a line, then no text that begins with the same lines up to and including that line can be read, and the same line is named in all of them; and some text that begins with the lines before it can be read. So the named line is the first one at which the text has gone wrong. Every error of a text names a line.", "quantifier": "all texts, all memories", "why_tests_cant": "whether a text could still be completed is a question about all of its infinitely many continuations; tests compare the number of a few errors with the number that the code printed", "anchors": ["parser.go: parseString, parseString's line counter", "gotables.go: NewTableSetFromString"]}
{"id": "C85", "title": "A table is its columns and rows and nothing else", "statement": "After any finite sequence of calls, with failing calls anywhere in it, each call has ended as a plain list of named columns and of rows, with a name and a list of sort keys, would have it end (success, an error, or a panic), and the table holds exactly what that list would hold: every call that changes a table is specified this way, with the exact table it leaves. Two tables with the same name, columns, rows, keys and flags behave the same from then on, whatever calls built them: the same calls give the same results and the same contents.", "quantifier": "all tables that calls can build, all sequences of the 42 modelled calls with all arguments, all random numbers and sorting algorithms", "why_tests_cant": "the number of histories is infinite, and a stale lookup entry shows only after the right sequence of renames, deletions and reorderings; tests run a few short sequences", "anchors": ["gotables.go: all methods that change a table", "sort.go: SetSortKeys, Sort, SortSimple, OrderColsBySortKeys", "helpers.go: Set<type>, Set<type>ByColIndex"]}
{"id": "C86", "title": "Shuffling is fair", "statement": "ShuffleRandom and ShufflePseudorandom draw for each row position i a number from 0 to i. Whatever is drawn, the rows of all tables of the same size are put in the same order, and every order of n rows comes from exactly one sequence of draws: if the sequences of draws are equally likely, so are the orders of the rows. Every arrangement of the rows of a table can come out.", "quantifier": "all tables, all numbers of rows, all sequences of draws, all orders of the rows", "why_tests_cant": "there are n! orders and a bias between them is not visible in a test that looks at one or a few shuffles of one table", "anchors": ["gotables.go: ShufflePseudorandom", "gotables.go: ShuffleRandom"]}
{"id": "C87", "title": "The error about a circular reference names the tables", "statement": "If IsValidTableNesting or HasCircularReference reports a circular reference, then HasCircRefError is true of the error and GetCircRefError gives the table the method was called on (RootTable) and the table met twice (CircTable), which is that table itself or is stored in two cells.", "quantifier": "all tables in memory, with any nesting, shared and circular tables included", "why_tests_cant": "the error depends on which of two checks meets a table first, and so on the whole shape of the nesting; the tests have one table stored twice at the top level", "anchors": ["errors.go: HasCircRefError, GetCircRefError, RootTable, CircTable", "tree.go: IsValidTableNesting, HasCircularReference, Walk"]}
{"id": "C88", "title": "Cell infos describe the cell", "statement": "GetCellInfo (by column name) and GetCellInfoByColIndex give, for every cell that exists, the name, the type and the position of its column and its row, and the name and the position lead to the same cell; for a cell that does not exist they return an error.", "quantifier": "all tables that calls can build, all column names, all column and row numbers", "why_tests_cant": "name, type and position come from three separate lists that must agree after any history of the table; tests look at one table", "anchors": ["tree.go: GetCellInfo, GetCellInfoByColIndex"]}
{"id": "C89", "title": "UtilRound rounds to the nearest number", "statement": "UtilRound(val, places) returns the multiple of 10^-places nearest to val, the upper one half way between two; a number that already is a multiple is left as it is.", "quantifier": "all numbers, positive and negative", "why_tests_cant": "the direction of rounding depends on the sign and on exact halves; tests have a list of numbers", "anchors": ["util.go: UtilRound"]}
{"id": "C90", "title": "String flags of commands", "statement": "After any sequence of calls of Set on a UtilStringFlag, AllOk is true exactly if there was at least one and no argument began with a dash; String is the last argument. UtilCheckStringFlag says a flag is there exactly if its argument is not empty and does not begin with a dash, and returns an error exactly if it does or if a required one is empty. The two agree on arguments that are not empty.", "quantifier": "all sequences of arguments, all strings", "why_tests_cant": "an error must outlast later calls, so the claim is about sequences; there are no tests of it", "anchors": ["util.go: UtilStringFlag, UtilCheckStringFlag"]}
{"id": "C91", "title": "Which names are accepted", "statement": "IsValidColName and IsValidTableName accept the same names: those that begin with a letter or an underscore, go on with letters, digits and underscores, and are not the name of a type. NewTable and SetName accept exactly these names, and so do AppendCol and RenameCol for a name the table does not have yet.", "quantifier": "all names, all tables that calls can build", "why_tests_cant": "there is no end of names, and the check runs byte by byte over text in UTF-8; tests have a list of names in ASCII", "anchors": ["parser.go: IsValidColName, IsValidTableName", "gotables.go: NewTable, SetName, AppendCol, RenameCol"]}
