{
 "claims": [
  {
   "property": "C01",
   "status": "proved",
   "theorems": [
    "Verif.C01_step",
    "Verif.C01_history",
    "Verif.C01_newTable",
    "Verif.C01_newNilTable",
    "Verif.C01_cell_types"
   ],
   "note": "Induction over histories of 42 kinds of calls; nested tables as opaque references."
  },
  {
   "property": "C02",
   "status": "partial",
   "theorems": [
    "Verif.C02_partial",
    "Verif.C02_partial_byColIndex",
    "Verif.C02_false",
    "Verif.C02_false_same_type"
   ],
   "note": "False of the code (C02_false, C02_false_same_type): only headings move. C02_partial states exactly what the call does."
  },
  {
   "property": "C03",
   "status": "proved",
   "theorems": [
    "Verif.C03_setVal",
    "Verif.C03_setValByColIndex",
    "Verif.C03_setTyped",
    "Verif.C03_setTypedByColIndex"
   ],
   "note": "SetVal, SetValByColIndex and the typed setters by name and by index."
  },
  {
   "property": "C04",
   "status": "proved",
   "theorems": [
    "Verif.C04_setVal_iff",
    "Verif.C04_setValByColIndex_iff",
    "Verif.C04_rejected",
    "Verif.C04_setTyped_iff"
   ],
   "note": "Acceptance iff for SetVal, SetValByColIndex and Set<type>; typed setters also refuse a nil slice. Rejected writes change nothing."
  },
  {
   "property": "C05",
   "status": "proved",
   "theorems": [
    "Verif.C05_getTyped",
    "Verif.C05_getTypedByColIndex",
    "Verif.C05_setTyped",
    "Verif.C05_setTypedByColIndex_panics_iff"
   ],
   "note": "Get<type>, Get<type>ByColIndex, Set<type> never panic; Set<type>ByColIndex panics exactly on an out of range column."
  },
  {
   "property": "C06",
   "status": "proved",
   "theorems": [
    "Verif.C06_appendRows",
    "Verif.C06_appendRow"
   ],
   "note": "AppendRows and AppendRow."
  },
  {
   "property": "C07",
   "status": "proved",
   "theorems": [
    "Verif.C07_appendCol",
    "Verif.C07_type_names"
   ],
   "note": "Success iff, the last column is zero-valued, other cells unchanged."
  },
  {
   "property": "C08",
   "status": "proved",
   "theorems": [
    "Verif.C08_deleteRows",
    "Verif.C08_deleteRow",
    "Verif.C08_deleteRowsAll"
   ],
   "note": "DeleteRows, DeleteRow, DeleteRowsAll, element by element."
  },
  {
   "property": "C09",
   "status": "proved",
   "theorems": [
    "Verif.C09_deleteCol",
    "Verif.C09_deleteColByColIndex"
   ],
   "note": "DeleteCol and DeleteColByColIndex."
  },
  {
   "property": "C10",
   "status": "proved",
   "theorems": [
    "Verif.C10_renameCol",
    "Verif.C10_renameColByColIndex"
   ],
   "note": "RenameCol and RenameColByColIndex."
  },
  {
   "property": "C11",
   "status": "partial",
   "theorems": [
    "Verif.C11_sort_noPanic",
    "Verif.C11_partial",
    "Verif.C11_false_rename",
    "Verif.C11_false_delete"
   ],
   "note": "False when a key column is renamed or deleted (C11_false_rename, C11_false_delete). C11_partial covers every other history."
  },
  {
   "property": "C12",
   "status": "proved",
   "theorems": [
    "Verif.C12_byColIndex",
    "Verif.C12_byName",
    "Verif.C12_inverse",
    "Verif.C12_newTable_byColIndex",
    "Verif.C12_newTable_byName"
   ],
   "note": "ReorderCols(ByColIndex), inverse permutation, NewTableReorderCols(ByColIndex)."
  },
  {
   "property": "C13",
   "status": "proved",
   "theorems": [
    "Verif.C13_reverse",
    "Verif.C13_twice"
   ],
   "note": "Position by position, and twice is the identity."
  },
  {
   "property": "C14",
   "status": "proved",
   "theorems": [
    "Verif.C14_shuffle"
   ],
   "note": "For arbitrary random choices."
  },
  {
   "property": "C15",
   "status": "proved",
   "theorems": [
    "Verif.C15_hasCol",
    "Verif.C15_index_name",
    "Verif.C15_name_index",
    "Verif.C15_bounds",
    "Verif.C15_hasCell"
   ],
   "note": "HasCol, ColIndex, ColName, ColType, GetVal, HasCell."
  },
  {
   "property": "C16",
   "status": "proved",
   "theorems": [
    "Verif.C16_result",
    "Verif.C16_total",
    "Verif.C16_antisymm",
    "Verif.C16_trans",
    "Verif.C16_zero",
    "Verif.C16_zero_exact",
    "Verif.C16_nan_not_transitive"
   ],
   "note": "All 14 comparison functions; NaN excluded where needed, with a counterexample."
  },
  {
   "property": "C17",
   "status": "proved",
   "theorems": [
    "Verif.C17_sort",
    "Verif.C17_sort_cols",
    "Verif.C17_no_keys"
   ],
   "note": "For every implementation of sort.Sort meeting its documented contract."
  },
  {
   "property": "C18",
   "status": "proved",
   "theorems": [
    "Verif.C18_searchFirst",
    "Verif.C18_bad_values"
   ],
   "note": "Search and SearchFirst; bad values are errors."
  },
  {
   "property": "C19",
   "status": "partial",
   "theorems": [
    "Verif.C19_partial",
    "Verif.C19_bad_values",
    "Verif.C19_false",
    "Verif.C19_false_empty"
   ],
   "note": "False when every row comes after the values (C19_false, C19_false_empty). C19_partial characterises all three outcomes."
  },
  {
   "property": "C20",
   "status": "proved",
   "theorems": [
    "Verif.C20_searchRange",
    "Verif.C20_bad_values"
   ],
   "note": "SearchRange; in particular it does not run into the SearchLast panic."
  },
  {
   "property": "C21",
   "status": "proved",
   "theorems": [
    "Verif.C21_first",
    "Verif.C21_last",
    "Verif.C21_calls_inside",
    "Verif.C21_terminates"
   ],
   "note": "The binary search functions for arbitrary monotone predicates."
  },
  {
   "property": "C22",
   "status": "partial",
   "theorems": [
    "Verif.C22_ascending",
    "Verif.C22_partial",
    "Verif.C22_errors",
    "Verif.C22_false"
   ],
   "note": "False for reversed keys (C22_false). C22_partial for key lists without reversed keys."
  },
  {
   "property": "C23",
   "status": "proved",
   "theorems": [
    "Verif.C23_setSortKeys",
    "Verif.C23_setSortKeysReverse",
    "Verif.C23_setSortKeysReverse_err",
    "Verif.C23_setSortKeysFromTable",
    "Verif.C23_mixed_directions_not_copied"
   ],
   "note": "SetSortKeys, SetSortKeysReverse, SetSortKeysFromTable (directions of duplicate keys must agree, counterexample otherwise)."
  },
  {
   "property": "C24",
   "status": "partial",
   "theorems": [
    "Verif.C24_order",
    "Verif.C24_partial",
    "Verif.C24_otherwise",
    "Verif.C24_false"
   ],
   "note": "Holds for distinct existing key columns (C24_partial); in every other case the call panics (C24_otherwise, C24_false)."
  },
  {
   "property": "C25",
   "status": "proved",
   "theorems": [
    "Verif.C25_equals",
    "Verif.C25_symm",
    "Verif.C25_trans",
    "Verif.C25_refl_iff",
    "Verif.C25_reorder"
   ],
   "note": "Tables without *Table columns; equality is IEEE, so a table with a NaN differs from itself (C25_refl_iff)."
  },
  {
   "property": "C26",
   "status": "partial",
   "theorems": [
    "Verif.C26_partial",
    "Verif.C26_refl",
    "Verif.C26_false"
   ],
   "note": "Exact when the *Table columns stand at the same place in both tables (C26_partial); false otherwise (C26_false)."
  },
  {
   "property": "C27",
   "status": "proved",
   "theorems": [
    "Verif.C27_independent",
    "Verif.C27_copyBody",
    "Verif.C27_copy",
    "Verif.C27_copy_iff"
   ],
   "note": "C27_copyBody, C27_copy: same name, columns, types and rows; no sort keys, no struct shape. C27_copy_iff: when it succeeds. C27_independent: later calls, with tables as slices in memory (C70). The bytes of a []byte cell are shared by Copy; no call of the API writes into them."
  },
  {
   "property": "C28",
   "status": "proved",
   "theorems": [
    "Verif.C28_newTableFromRows",
    "Verif.C28_bySearchRange"
   ],
   "note": "NewTableFromRows and NewTableFromRowsBySearchRange."
  },
  {
   "property": "C29",
   "status": "partial",
   "theorems": [
    "Verif.C29_partial",
    "Verif.C29_false"
   ],
   "note": "Exact success condition and effect (C29_partial); atomicity is false of the code (C29_false)."
  },
  {
   "property": "C30",
   "status": "proved",
   "theorems": [
    "Verif.C30_appendColsFromTable"
   ],
   "note": ""
  },
  {
   "property": "C31",
   "status": "proved",
   "theorems": [
    "Verif.C31_appendTable",
    "Verif.C31_getTableByTableIndex",
    "Verif.C31_lookup",
    "Verif.C31_deleteTableByTableIndex",
    "Verif.C31_deleteTable",
    "Verif.C31_renameTable",
    "Verif.C31_history"
   ],
   "note": "Every sequence of calls on a new set; SetName called on a member table itself can still break uniqueness (shown beside the theorem)."
  },
  {
   "property": "C32",
   "status": "proved",
   "theorems": [
    "Verif.C32_roundTrip",
    "Verif.C32_outOfRange"
   ],
   "note": "Integer text followed by anything that does not continue the number."
  },
  {
   "property": "C33",
   "status": "partial",
   "theorems": [
    "Verif.C33_token",
    "Verif.C33_signed",
    "Verif.C33_unsigned_partial",
    "Verif.C33_noToken",
    "Verif.C33_plus_rejected"
   ],
   "note": "Exact for signed columns and for unsigned literals; false for a plus sign in unsigned columns (C33_plus_rejected)."
  },
  {
   "property": "C34",
   "status": "proved",
   "theorems": [
    "Verif.C34_roundTrip",
    "Verif.C34_injective",
    "Verif.C34_oneLine"
   ],
   "note": "strconv.Quote and Unquote are modelled, with an arbitrary table of printable code points above 0x7F."
  },
  {
   "property": "C35",
   "status": "proved",
   "theorems": [
    "Verif.C35_roundTrip",
    "Verif.C35_notCodePoint"
   ],
   "note": "Every Unicode code point; other 32-bit values come back as U+FFFD (C35_notCodePoint)."
  },
  {
   "property": "C36",
   "status": "proved",
   "theorems": [
    "Verif.C36_roundTrip",
    "Verif.C36_floats",
    "Verif.C36_roundTrip_strconv",
    "Verif.C36_rowsLost",
    "Verif.C36_infinity",
    "Verif.C36_struct"
   ],
   "note": "FloatOK, what is used of strconv's float conversion, is proved of a model of strconv (C36_floats); C36_roundTrip_strconv needs no assumption about floats. C36_rowsLost, C36_infinity, C36_struct: what the format does not preserve."
  },
  {
   "property": "C37",
   "status": "proved",
   "theorems": [
    "Verif.C37_roundTrip",
    "Verif.C37_nameLost"
   ],
   "note": "As C36. The name of the set is not written (C37_nameLost)."
  },
  {
   "property": "C38",
   "status": "partial",
   "theorems": [
    "Verif.C38_roundTrip_partial",
    "Verif.C38_changed",
    "Verif.C38_refused"
   ],
   "note": "False for integers above 2^53 (C38_changed, C38_refused) and for 28 powers of two (C57). C38_roundTrip_partial: all other cells (PadSafe), tables without *Table columns; floats and times as the standard library converts them (PrintEnv.IsGo)."
  },
  {
   "property": "C39",
   "status": "proved",
   "theorems": [
    "Verif.C39_parser",
    "Verif.C39_oneTable"
   ],
   "note": "For every reading of floats and times."
  },
  {
   "property": "C40",
   "status": "partial",
   "theorems": [
    "Verif.C40_tableName_partial",
    "Verif.C40_colName",
    "Verif.C40_notAscii"
   ],
   "note": "Column names agree exactly (C40_colName); table names exactly when ASCII (C40_tableName_partial), false otherwise (C40_notAscii)."
  },
  {
   "property": "C41",
   "status": "proved",
   "theorems": [
    "Verif.C41_merge",
    "Verif.C41_empty_receiver",
    "Verif.C41_empty_argument",
    "Verif.C41_no_keys",
    "Verif.C41_false"
   ],
   "note": "C41_merge: success exactly if some key repeats and every column has a type that can be merged, and then the whole result (columns, types, one row per key, order, cells); otherwise an error. Both tables non-empty, keys without NaN, equal types of shared columns, no column named _TABLE_ or _DELETE_. C41_empty_receiver, C41_empty_argument, C41_no_keys: the other cases. C41_false: tables without a repeated key cannot be merged."
  },
  {
   "property": "C42",
   "status": "proved",
   "theorems": [
    "Verif.C42_both",
    "Verif.C42_first_only",
    "Verif.C42_second_only",
    "Verif.C42_column_of_first",
    "Verif.C42_column_of_second"
   ],
   "note": "For merged tables in which each input has distinct keys; the general case is part of IsMerge in C41_merge."
  },
  {
   "property": "C43",
   "status": "partial",
   "theorems": [
    "Verif.C43_table",
    "Verif.C43_keys",
    "Verif.C43_set",
    "Verif.C43_duplicates",
    "Verif.C43_decoded",
    "Verif.C43_noBuffers"
   ],
   "note": "First part proved for every table without sort keys, tables and times (C43_table) and for sets (C43_set; C43_duplicates: equal names are an error on decoding), for every encoder/decoder meeting GobOK (encoding/gob is not modelled). Second part false: any sort key panics (C43_keys). C43_decoded: what any decoded table satisfies. C43_noBuffers: decoding no buffers panics."
  },
  {
   "property": "C44",
   "status": "partial",
   "theorems": [
    "Verif.C44_nearest_partial",
    "Verif.C44_iff",
    "Verif.C44_changed"
   ],
   "note": "False beyond 53 significant bits (C44_changed). C44_nearest_partial: an integer becomes a nearest integer of at most 53 significant bits; C44_iff: one of up to 62 bits survives exactly if it has at most 53 significant bits."
  },
  {
   "property": "C45",
   "status": "partial",
   "theorems": [
    "Verif.C45_read_partial",
    "Verif.C45_columns",
    "Verif.C45_refused",
    "Verif.C45_lost",
    "Verif.C45_changed"
   ],
   "note": "Two or more columns: everything is read back, with CR LF read as LF (C45_columns). In general records written as blank lines are skipped (C45_read_partial): false for one column with an empty text (C45_lost) and for CR LF (C45_changed). C45_refused: wrong headings."
  },
  {
   "property": "C46",
   "status": "proved",
   "theorems": [
    "Verif.C46_depth",
    "Verif.C46_terminates",
    "Verif.C46_visits",
    "Verif.C46_shallow",
    "Verif.C46_revisit"
   ],
   "note": "Visitors that do not panic and do not change the tables."
  },
  {
   "property": "C47",
   "status": "partial",
   "theorems": [
    "Verif.C47_exact",
    "Verif.C47_partial",
    "Verif.C47_partial_flat",
    "Verif.C47_false"
   ],
   "note": "Exact condition (C47_exact), no false negatives (C47_partial), exact for flat nested tables (C47_partial_flat); false in general (C47_false)."
  },
  {
   "property": "C48",
   "status": "partial",
   "theorems": [
    "Verif.C48_partial_flat",
    "Verif.C48_false",
    "Verif.C48_false_receiver",
    "Verif.C48_false_fresh"
   ],
   "note": "False of the code in every respect (C48_false, C48_false_receiver, C48_false_fresh); C48_partial_flat: a flat receiver is returned itself."
  },
  {
   "property": "C49",
   "status": "partial",
   "theorems": [
    "Verif.C49_false",
    "Verif.C49_partial"
   ],
   "note": "False (C49_false): a failing SetSortKeys drops the old keys. C49_partial states what it leaves behind."
  },
  {
   "property": "C50",
   "status": "proved",
   "theorems": [
    "Verif.C50_noPoint",
    "Verif.C50_shape",
    "Verif.C50_value"
   ],
   "note": "All texts with a point and decimal digits after it, all texts without a point."
  },
  {
   "property": "C51",
   "status": "proved",
   "theorems": [
    "Verif.C51_uint8SliceEquals"
   ],
   "note": ""
  },
  {
   "property": "C52",
   "status": "partial",
   "theorems": [
    "Verif.C52_names_partial"
   ],
   "note": "All column types but *Table and time.Time, for which the generated names do not exist (C52_names_partial says both)."
  },
  {
   "property": "C53",
   "status": "proved",
   "theorems": [
    "Verif.C53_isValidTable",
    "Verif.C53_flat",
    "Verif.C53_detects"
   ],
   "note": "All well-formed tables (every reachable table is, C01); C53_detects: all tables whatsoever."
  },
  {
   "property": "C54",
   "status": "proved",
   "theorems": [
    "Verif.C54_atomic",
    "Verif.C54_failing_calls_are_skips"
   ],
   "note": "For the 22 calls of Op.Atomic; SetSortKeys and AppendRowsFromTable are not atomic (C49, C29)."
  },
  {
   "property": "C55",
   "status": "proved",
   "theorems": [
    "Verif.C55_equals",
    "Verif.C55_isValidTableSet",
    "Verif.C55_walk",
    "Verif.C55_copy"
   ],
   "note": "Equals under the hypothesis of C26_partial, Copy for flat tables (C27), Walk on trees (C46)."
  },
  {
   "property": "C56",
   "status": "proved",
   "theorems": [
    "Verif.C56_roundTrip",
    "Verif.C56_badName"
   ],
   "note": "Sets of tables as in C38_roundTrip_partial; C56_badName: other set names."
  },
  {
   "property": "C57",
   "status": "partial",
   "theorems": [
    "Verif.C57_floats_partial",
    "Verif.C57_changed64",
    "Verif.C57_exceptions64",
    "Verif.C57_changed32"
   ],
   "note": "False for exactly 27 powers of two of type float64 (C57_exceptions64, C57_changed64) and one of type float32 (C57_changed32); C57_floats_partial: every other finite float comes back with its bits."
  },
  {
   "property": "C58",
   "status": "proved",
   "theorems": [
    "Verif.C58_tooMany",
    "Verif.C58_tooFew"
   ],
   "note": "Table texts as StringUnpadded writes them (the basic column types), followed by a row with too many or too few values."
  },
  {
   "property": "C59",
   "status": "proved",
   "theorems": [
    "Verif.C59_set",
    "Verif.C59_table",
    "Verif.C59_float32"
   ],
   "note": "For every PrintEnv and JsonEnv with Go's float conversions; times are covered if their text is parsed back (C75 says which are). C59_float32: a float32 that is changed by being rounded twice."
  },
  {
   "property": "C60",
   "status": "partial",
   "theorems": [
    "Verif.C60_noPanic_partial",
    "Verif.C60_read",
    "Verif.C60_false"
   ],
   "note": "First part false (C60_false: seven valid JSON texts that panic). C60_noPanic_partial: no panic for every text that is not valid JSON or has the shape that GetTableSetAsJSON writes, whatever its names, types and values. C60_read: the second part, for all texts."
  },
  {
   "property": "C61",
   "status": "proved",
   "theorems": [
    "Verif.C61_iff",
    "Verif.C61_depth",
    "Verif.C61_noCycle",
    "Verif.C61_shared"
   ],
   "note": "C61_iff, C61_noCycle; C61_depth: the bound on recursion of the model does not matter; C61_shared: a shared table is refused though not circular."
  },
  {
   "property": "C62",
   "status": "partial",
   "theorems": [
    "Verif.C62_set",
    "Verif.C62_valid",
    "Verif.C62_refused",
    "Verif.C62_read",
    "Verif.C62_false"
   ],
   "note": "First sentence false (C62_false: a bell character, rune 0, infinities, NaN). C62_valid and C62_set say exactly when the text is valid JSON, C62_refused that otherwise nothing is read, C62_read what is read if it is."
  },
  {
   "property": "C63",
   "status": "proved",
   "theorems": [
    "Verif.C63_sortUnique",
    "Verif.C63_columns",
    "Verif.C63_no_keys",
    "Verif.C63_empty",
    "Verif.C63_distinct"
   ],
   "note": "C63_sortUnique: success exactly if all columns can be merged, and the whole result; C63_columns, C63_no_keys, C63_empty: the other cases; C63_distinct: distinct keys. Columns called _TABLE_ or _DELETE_ are excluded."
  },
  {
   "property": "C64",
   "status": "proved",
   "theorems": [
    "Verif.C64_nest",
    "Verif.C64_no_keys"
   ],
   "note": "C64_nest: success exactly if every row has a match, and the whole result, with what the stored texts are read as. Receiver and argument are different tables. C64_no_keys: sort keys of the argument are never used, unlike the comment says."
  },
  {
   "property": "C65",
   "status": "proved",
   "theorems": [
    "Verif.C65_keys",
    "Verif.C65_names"
   ],
   "note": "C65_keys: the whole table; C65_names: what is read from it."
  },
  {
   "property": "C66",
   "status": "proved",
   "theorems": [
    "Verif.C66_map",
    "Verif.C66_sound",
    "Verif.C66_cycle",
    "Verif.C66_depth"
   ],
   "note": "C66_map: success and the description; C66_sound: whenever it succeeds; C66_cycle: no bound on the recursion suffices if a table is nested in itself; C66_depth: the bound does not matter."
  },
  {
   "property": "C67",
   "status": "proved",
   "theorems": [
    "Verif.C67_set"
   ],
   "note": "C67_set, for every library that meets the contract YamlOK (a text is read as the map it was made from, with whole floats below a million becoming int, as yaml.v3 does)."
  },
  {
   "property": "C68",
   "status": "partial",
   "theorems": [
    "Verif.C68_noPanic_partial",
    "Verif.C68_refused",
    "Verif.C68_minusZero"
   ],
   "note": "False of the code. C68_refused: every set with a float64 that is a whole number below a million, at any depth, is written and then refused with an error. C68_noPanic_partial: it is never met with a panic. C68_minusZero: -0 in a float32 column is read as 0."
  },
  {
   "property": "C69",
   "status": "partial",
   "theorems": [
    "Verif.C69_read_partial",
    "Verif.C69_notYAML",
    "Verif.C69_false",
    "Verif.C69_wraps"
   ],
   "note": "C69_read_partial: all of it but the last clause. C69_notYAML: what is not YAML gives an error. C69_false: ten documents that make it panic. C69_wraps: an integer that is too great is read as another number without an error."
  },
  {
   "property": "C70",
   "status": "proved",
   "theorems": [
    "Verif.C70_memory",
    "Verif.C70_keeps",
    "Verif.C70_others"
   ],
   "note": "C70_memory: from no tables; C70_keeps: from any separate tables; C70_others: calls to other tables leave a table alone. A call is any sequence of the assignments listed in Model/Slices.lean that has the effect of the call in the by-value model; that there is one is proved for each of the 42 kinds of calls."
  },
  {
   "property": "C71",
   "status": "proved",
   "theorems": [
    "Verif.C71_byName",
    "Verif.C71_byIndex",
    "Verif.C71_only",
    "Verif.C71_written",
    "Verif.C71_json",
    "Verif.C71_jsonWritten"
   ],
   "note": "C71_byName, C71_byIndex, C71_only for every text; C71_written for every set that String() keeps; C71_json, C71_jsonWritten for JSON."
  },
  {
   "property": "C72",
   "status": "proved",
   "theorems": [
    "Verif.C72_read",
    "Verif.C72_errors",
    "Verif.C72_write",
    "Verif.C72_set",
    "Verif.C72_table"
   ],
   "note": "The file system is a function from names to contents, with permissions and equality of names as parameters. The path with which a file is opened is assumed to be a name of the same file (OpensAs)."
  },
  {
   "property": "C73",
   "status": "partial",
   "theorems": [
    "Verif.C73_column",
    "Verif.C73_join",
    "Verif.C73_missing_partial",
    "Verif.C73_empty"
   ],
   "note": "C73_column and C73_join hold throughout. Missing columns are errors only in tables that have rows (C73_missing_partial): with no rows there is no error (C73_empty)."
  },
  {
   "property": "C74",
   "status": "proved",
   "theorems": [
    "Verif.C74_hasCell",
    "Verif.C74_types",
    "Verif.C74_noColumn",
    "Verif.C74_mustGet",
    "Verif.C74_mustSet",
    "Verif.C74_mustSetByColIndex"
   ],
   "note": "C74_hasCell, C74_types, C74_noColumn, C74_mustGet, C74_mustSet, C74_mustSetByColIndex."
  },
  {
   "property": "C75",
   "status": "partial",
   "theorems": [
    "Verif.C75_parse",
    "Verif.C75_text_partial",
    "Verif.C75_json",
    "Verif.C75_fraction",
    "Verif.C75_halfSecond",
    "Verif.C75_zone",
    "Verif.C75_years",
    "Verif.C75_calendar",
    "Verif.C75_characters"
   ],
   "note": "Holds in JSON for the years 0 to 9999 and zones of whole minutes (C75_parse, C75_json), and in table text if moreover the fraction of a second has nine digits or none (C75_text_partial). False otherwise: C75_fraction and C75_halfSecond (other fractions cannot be read), C75_zone (seconds of the zone are dropped), C75_years (the year 10000 is read as the year 0). C75_calendar: the dates written are those of the Gregorian calendar. C75_characters: the text, character by character."
  },
  {
   "property": "C76",
   "status": "partial",
   "theorems": [
    "Verif.C76_unchanged",
    "Verif.C76_noLevel",
    "Verif.C76_negative",
    "Verif.C76_trivial_partial"
   ],
   "note": "Holds: it changes no existing table and returns its receiver (C76_unchanged), refuses negative depths (C76_negative), succeeds for depth 0 or without columns of tables (C76_trivial_partial). False: the promise to add levels; cells that stand for no table stay so (C76_noLevel): the tree is built in a copy that is thrown away."
  },
  {
   "property": "C77",
   "status": "partial",
   "theorems": [
    "Verif.C77_sets",
    "Verif.C77_store_partial",
    "Verif.C77_text",
    "Verif.C77_appendRow",
    "Verif.C77_appendCol",
    "Verif.C77_replaced",
    "Verif.C77_copy"
   ],
   "note": "Holds after SetTable and SetTableByColIndex of a table that no other table holds (C77_store_partial), after new rows (C77_appendRow) and in every table read from a text (C77_text). C77_sets: exactly one parent is set. False otherwise: the tables of a new column have no parent (C77_appendCol), a table that was replaced keeps its parent (C77_replaced), a failed SetTable sets the parent (C77_sets), the tables held by a copy have the original as parent (C77_copy)."
  },
  {
   "property": "C78",
   "status": "proved",
   "theorems": [
    "Verif.C78_set",
    "Verif.C78_table",
    "Verif.C78_bytes",
    "Verif.C78_refused",
    "Verif.C78_roundTrip"
   ],
   "note": "C78_set, C78_table: read alike. C78_bytes: only white space differs. C78_refused: when there is a text (times may be any plain text, names ASCII). C78_roundTrip: C59 for the indented form."
  },
  {
   "property": "C79",
   "status": "partial",
   "theorems": [
    "Verif.C79_text",
    "Verif.C79_renamed",
    "Verif.C79_kept_partial",
    "Verif.C79_endless",
    "Verif.C79_changed",
    "Verif.C79_clash"
   ],
   "note": "C79_text: the text, for every tree of tables. That nothing changes is false (C79_changed): nested tables keep the name under which they were printed, nil tables become tables with a name; a second call prints other names. C79_renamed: exactly what is changed. C79_kept_partial: in any memory, nothing but names. C79_endless: a cycle never ends. C79_clash: tables of different names can be printed under the same name."
  },
  {
   "property": "C80",
   "status": "partial",
   "theorems": [
    "Verif.C80_aligned_partial",
    "Verif.C80_start",
    "Verif.C80_tooWide",
    "Verif.C80_string",
    "Verif.C80_unpadded"
   ],
   "note": "C80_string: there is a text. C80_aligned_partial, C80_start: the columns line up if integers are at most 2^53 in magnitude; false otherwise (C80_tooWide: 9999999999999999 is written as 10000000000000000, wider than its column). C80_unpadded: StringUnpadded is empty exactly for tables with a row and a column of type byte, []byte, []uint8 or time.Time."
  },
  {
   "property": "C81",
   "status": "partial",
   "theorems": [
    "Verif.C81_text",
    "Verif.C81_compiles_partial",
    "Verif.C81_fromTable_partial",
    "Verif.C81_otherTable_partial",
    "Verif.C81_toTable_partial",
    "Verif.C81_nil",
    "Verif.C81_roundTrip_partial",
    "Verif.C81_structs_partial",
    "Verif.C81_columnTaken",
    "Verif.C81_tableTaken",
    "Verif.C81_types",
    "Verif.C81_rowIndex",
    "Verif.C81_nilBytes"
   ],
   "note": "C81_text ties the generators to the programs; the others are about these programs under `Usable`: names that do not clash with the generated text, no *Table or time.Time columns, no nil byte slices for the way to a table. Otherwise it is false: C81_columnTaken (table, err, nil, _, keywords, the table's own name), C81_tableTaken, C81_types (do not compile), C81_rowIndex (an int column named rowIndex compiles, but values end up in other structs or the function panics), C81_nilBytes."
  },
  {
   "property": "C82",
   "status": "partial",
   "theorems": [
    "Verif.C82_rows",
    "Verif.C82_floats",
    "Verif.C82_float64",
    "Verif.C82_float32",
    "Verif.C82_nothingIgnored_partial",
    "Verif.C82_ignored"
   ],
   "note": "C82_rows is the equivalence with a grammar in which text may be skipped before a rune, a NaN and a time, as in the code; C82_float64 and C82_float32 say which float a number is, with strconv as modelled (C82_floats). That nothing is ignored is proved for tables without columns of types rune, float32, float64 and time.Time (C82_nothingIgnored_partial); it is false for these (C82_ignored)."
  },
  {
   "property": "C83",
   "status": "proved",
   "theorems": [
    "Verif.C83_text",
    "Verif.C83_error",
    "Verif.C83_oneTable",
    "Verif.C83_lost"
   ],
   "note": "C83_text is the equivalence with the grammar of Spec/Document.lean, C83_error says that all other texts are errors, C83_oneTable is NewTableFromString. The grammar has the places where the code loses text without an error (C83_lost) and, in rows, those of C82."
  },
  {
   "property": "C84",
   "status": "partial",
   "theorems": [
    "Verif.C84_error",
    "Verif.C84_hopeless",
    "Verif.C84_first_partial",
    "Verif.C84_unnamed",
    "Verif.C84_late",
    "Verif.C84_lateHopeless"
   ],
   "note": "C84_error: there is a line to name exactly if there is an error. C84_hopeless: no continuation of the text up to the named line is read. C84_first_partial: before the named line the text could be saved, unless the line before it names a column twice. C84_unnamed: only a column that is named twice gives an error without a line. False in general (C84_late, C84_lateHopeless): a column that is named twice is noticed only at the line with the types, and then without a line; after a comment at the end of the text the error names a line that does not exist."
  },
  {
   "property": "C85",
   "status": "proved",
   "theorems": [
    "Verif.C85_step",
    "Verif.C85_history",
    "Verif.C85_sure",
    "Verif.C85_same",
    "Verif.C85_same_history",
    "Verif.C85_reads"
   ],
   "note": "Spec/Plain.lean says for each call what it may do to a table without its lookup map. C85_step: one call does that. C85_history: so does every history, with its list of verdicts. C85_sure: the specification leaves no choice but in sorting and shuffling. C85_same, C85_same_history: tables with the same contents behave the same, sorting and shuffling included. C85_reads: lookups by name too."
  },
  {
   "property": "C86",
   "status": "proved",
   "theorems": [
    "Verif.C86_order",
    "Verif.C86_unique",
    "Verif.C86_fair",
    "Verif.C86_all"
   ],
   "note": "C86_order: the draws alone decide the order. C86_fair: every order comes from exactly one sequence of draws. C86_unique: two sequences of draws that agree on one table with distinct rows are the same. C86_all: every arrangement of the rows is reached, also if rows repeat. That the random source draws evenly is not part of the code."
  },
  {
   "property": "C87",
   "status": "partial",
   "theorems": [
    "Verif.C87_verdict",
    "Verif.C87_partial",
    "Verif.C87_partial_flat",
    "Verif.C87_false",
    "Verif.C87_false_has"
   ],
   "note": "False of the code: C87_false (a table that holds itself, found by Walk first, gives an error without a CircRefError), C87_false_has (the error of HasCircularReference never has one). C87_verdict: where there is an error at all is what C47 says. C87_partial: a CircRefError names the receiver and a table in one of its cells. C87_partial_flat: where the nested tables hold no tables, every error of IsValidTableNesting has a CircRefError, and its table is the receiver or stored in two of its cells."
  },
  {
   "property": "C88",
   "status": "partial",
   "theorems": [
    "Verif.C88_partial",
    "Verif.C88_partial_noColumn",
    "Verif.C88_partial_info",
    "Verif.C88_false_row",
    "Verif.C88_false_col"
   ],
   "note": "False of the code: C88_false_row (an info for a row that does not exist), C88_false_col (a panic instead of an error). C88_partial: for a column that exists, both ways give its name, type and position. C88_partial_noColumn: an unknown name is an error. C88_partial_info: whatever is returned describes a column of the table."
  },
  {
   "property": "C89",
   "status": "partial",
   "theorems": [
    "Verif.C89_partial",
    "Verif.C89_negative",
    "Verif.C89_whole",
    "Verif.C89_false"
   ],
   "note": "False of the code: C89_false (-0.25 gives -1), C89_negative (negative numbers are always rounded down). C89_partial: numbers that are not negative are rounded to the nearest, half way up. C89_whole: multiples are left as they are. The arithmetic is exact here; in floating point it is so for places = 0."
  },
  {
   "property": "C90",
   "status": "proved",
   "theorems": [
    "Verif.C90_flag",
    "Verif.C90_check",
    "Verif.C90_agree"
   ],
   "note": "C90_flag: all sequences of calls of Set. C90_check: UtilCheckStringFlag. C90_agree: the two agree."
  },
  {
   "property": "C91",
   "status": "partial",
   "theorems": [
    "Verif.C91_same",
    "Verif.C91_partial",
    "Verif.C91_false"
   ],
   "note": "False of the code: C91_false (a letter outside ASCII is refused, a fraction sign is accepted, because each byte is taken for a character). C91_partial: exactly the identifiers that are not types, for all names in ASCII and all the calls. C91_same: tables and columns accept the same names, for all texts."
  }
 ]
}