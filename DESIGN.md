# Formal model of gotables in Lean 4

The plan was written before the proofs; this file is kept current as the model grows.

## Layout

| Path (under `lean/Verif/`) | Content |
| --- | --- |
| `Go/` | The part of Go and its standard library the code relies on: byte strings, maps, slices, integer and float semantics, UTF-8, `strconv`, `encoding/csv` (writer), `encoding/json` (decoder). |
| `Model/` | gotables itself, function by function. Each definition cites file and lines in `/repo`. |
| `Spec/` | Small independent vocabulary used in the property statements. It refers to data types only, not to functions of the model. |
| `Lemmas/` | Helper lemmas. |
| `Props/` | The property theorems (`C01_...`), each with a concrete non-trivial instance beside it. |

`properties.jsonl` lists the properties, `MANIFEST.json` says which theorems claim them, `seeded/LOG.jsonl` records which theorems failed
when the model was edited like a realistic bug.

## Representation choices

* Go `string` is a list of bytes (`List UInt8`), not necessarily valid UTF-8.
* Go `int` is 64 bits. Row and column indices are unbounded `Int`; the code only compares and indexes with them.
* A cell (`interface{}`) is an inductive `Cell τ` with one constructor per Go dynamic type
  (`byte` = `uint8` and `rune` = `int32` are the same dynamic type, as in Go). `τ` is the type of references to nested tables,
  so the same model is used with opaque references (most properties) and with addresses in a heap (nesting, sets, text, JSON, gob).
* Floats are IEEE bit patterns; `<` and `==` are defined on the bits, so NaN, infinities and signed zeros are all there.
* A pointer-receiver method is a function returning the new table together with the outcome (`ok a`, `err e`, `panic`).
  So what a failing call leaves behind is visible, and "never panics" is a statement about the model.
* The Go map `colNamesMap` is a separate association list, kept in step by hand as in the code. Iteration order of Go maps is arbitrary where the code iterates.
* Where a call involves two tables, they are passed by value. This is faithful only if receiver and argument are different tables; each such definition says so.
* Slices are lists and tables are values. That this is so in memory, where slices share arrays and `append` may write in place, is C70. Cells of slice type are
  copied by reference in Go; the model does not see writes through a shared `[]byte`.
* Recursion over nested tables takes a bound on its depth; theorems either say which bound suffices (the number of tables) or that the bound does not matter (`C61_depth`).
* Error values carry only a tag, not the message text.

## Properties

Outcome: `proved` — the statement in `properties.jsonl` holds of the model; `partial` — it is false of the code (then proved false, with a witness)
or proved only under the extra conditions named.

| Id | What is modelled and how it is proved | Outcome |
| --- | --- | --- |
| C01 Tables stay well-formed under every history of calls | `WF` (Spec/WF) is an invariant; each of 42 kinds of mutating calls keeps it, on success and on error; induction over the list of calls. | **proved**. Induction over histories of 42 kinds of calls; nested tables as opaque references. |
| C02 SwapCols keeps the table well-formed and moves the data with the column | `SwapCols*` modelled; negation with a concrete witness; a theorem saying exactly which part moves. | **partial**. False of the code (C02_false, C02_false_same_type): only headings move. C02_partial states exactly what the call does. |
| C03 A value written is the value read, and nothing else changes | Set/Get model over `Cell`; frame by position in the list of rows. | **proved**. SetVal, SetValByColIndex and the typed setters by name and by index. |
| C04 Writes are accepted exactly when cell exists and type matches | Case analysis on bounds, nil and dynamic type. | **proved**. Acceptance iff for SetVal, SetValByColIndex and Set<type>; typed setters also refuse a nil slice. Rejected writes change nothing. |
| C05 Typed getters never panic on a well-formed table | Case analysis; panics are outcomes of the model. | **proved**. Get<type>, Get<type>ByColIndex, Set<type> never panic; Set<type>ByColIndex panics exactly on an out of range column. |
| C06 AppendRow(s) adds exactly the requested zero rows | Loop model, induction over the number of rows. | **proved**. AppendRows and AppendRow. |
| C07 AppendCol adds one zero-valued column and disturbs nothing | Loop model, induction over the rows. | **proved**. Success iff, the last column is zero-valued, other cells unchanged. |
| C08 DeleteRows removes exactly the closed interval | Slice surgery as list operations, compared element by element with the closed interval. | **proved**. DeleteRows, DeleteRow, DeleteRowsAll, element by element. |
| C09 DeleteCol removes exactly one column | Index-based specification of one erased column; the loop that repairs the name map is modelled. | **proved**. DeleteCol and DeleteColByColIndex. |
| C10 RenameCol changes only the name | As C09. | **proved**. RenameCol and RenameColByColIndex. |
| C11 Sort keys survive structural edits: Sort never panics | Index -1 is a panic of the model; negation by witness; histories that keep key columns. | **partial**. False when a key column is renamed or deleted (C11_false_rename, C11_false_delete). C11_partial covers every other history. |
| C12 ReorderCols applies exactly the requested permutation | `sort.Ints` enters by its contract; the permutation check is proved equivalent to being a permutation. | **proved**. ReorderCols(ByColIndex), inverse permutation, NewTableReorderCols(ByColIndex). |
| C13 Reverse reverses, and twice is identity | Swap loop = list reverse. | **proved**. Position by position, and twice is the identity. |
| C14 Shuffling only permutes rows | Any sequence of swaps is a permutation. | **proved**. For arbitrary random choices. |
| C15 Name lookup and index lookup agree | From `WF`. | **proved**. HasCol, ColIndex, ColName, ColType, GetVal, HasCell. |
| C16 Comparison functions are total orders | Order laws of all 14 comparison functions, floats on bit patterns. | **proved**. All 14 comparison functions; NaN excluded where needed, with a counterexample. |
| C17 Sort yields a permutation sorted by the keys | Lexicographic key comparison is a strict weak order; `sort.Sort` by its contract (`GoSort`). | **proved**. For every implementation of sort.Sort meeting its documented contract. |
| C18 Search finds the first matching row or reports absence | Binary search loop, proved for monotone predicates, then for sorted tables. | **proved**. Search and SearchFirst; bad values are errors. |
| C19 SearchLast finds the last matching row or reports absence | As C18, with the index -1 as a panic. | **partial**. False when every row comes after the values (C19_false, C19_false_empty). C19_partial characterises all three outcomes. |
| C20 SearchRange returns exactly the block of matching rows | As C18. | **proved**. SearchRange; in particular it does not run into the SearchLast panic. |
| C21 SearchFirst(n,f) and SearchLast(n,f) are correct on monotone predicates | Loop invariants of both binary searches. | **proved**. The binary search functions for arbitrary monotone predicates. |
| C22 CompareRows agrees with the order used by Sort | Agreement without reversed keys, negation with. | **partial**. False for reversed keys (C22_false). C22_partial for key lists without reversed keys. |
| C23 SetSortKeys sets exactly the requested keys | Key list functions. | **proved**. SetSortKeys, SetSortKeysReverse, SetSortKeysFromTable (directions of duplicate keys must agree, counterexample otherwise). |
| C24 OrderColsBySortKeys moves key columns to the front | Key list functions and C12. | **partial**. Holds for distinct existing key columns (C24_partial); in every other case the call panics (C24_otherwise, C24_false). |
| C25 Equals is an equivalence and means same content up to column order | `Equals` modelled with its loops; equivalent to a specification by name and row. | **proved**. Tables without *Table columns; equality is IEEE, so a table with a NaN differs from itself (C25_refl_iff). |
| C26 Equals ignores column order also for nested tables | `Equals` over a heap of tables. | **partial**. Exact when the *Table columns stand at the same place in both tables (C26_partial); false otherwise (C26_false). |
| C27 Copy yields an equal table | Loops of `Copy`; independence from C70. | **proved**. C27_copyBody, C27_copy: same name, columns, types and rows; no sort keys, no struct shape. C27_copy_iff: when it succeeds. C27_independent: later calls, with tables as slices in memory (C70). The bytes of a []byte cell are shared by Copy; no call of the API writes into them. |
| C28 NewTableFromRows extracts exactly the requested rows | Loops over rows and columns. | **proved**. NewTableFromRows and NewTableFromRowsBySearchRange. |
| C29 AppendRowsFromTable appends the requested rows or nothing | Loops with what an error leaves behind. | **partial**. Exact success condition and effect (C29_partial); atomicity is false of the code (C29_false). |
| C30 AppendColsFromTable adds exactly the missing columns | Loop over columns. | **proved**.  |
| C31 A TableSet behaves as an ordered map with unique names | Refinement of the table set to a list of names, induction over the calls. | **proved**. Every sequence of calls on a new set; SetName called on a member table itself can still break uniqueness (shown beside the theorem). |
| C32 Integers printed in decimal are read back exactly | `strconv.FormatInt/ParseInt` modelled; induction over digits. | **proved**. Integer text followed by anything that does not continue the number. |
| C33 Integer literal syntax is interpreted as documented | `strconv.ParseInt/ParseUint` and the regular expressions as scanners, against `Denotes` (Spec/Literal). | **partial**. Exact for signed columns and for unsigned literals; false for a plus sign in unsigned columns (C33_plus_rejected). |
| C34 Quoted strings round-trip for every byte sequence | `strconv.Quote/Unquote`, UTF-8 and the scanners modelled; induction over the bytes. | **proved**. strconv.Quote and Unquote are modelled, with an arbitrary table of printable code points above 0x7F. |
| C35 Runes round-trip for every code point | As C34. | **proved**. Every Unicode code point; other 32-bit values come back as U+FFFD (C35_notCodePoint). |
| C36 Table text round-trip (unpadded) | Printer and line parser modelled; a printed table is a list of lines of tokens, each of which the parser reads as the cell it came from. Floats by a model of strconv proved to round-trip. | **proved**. FloatOK, what is used of strconv's float conversion, is proved of a model of strconv (C36_floats); C36_roundTrip_strconv needs no assumption about floats. C36_rowsLost, C36_infinity, C36_struct: what the format does not preserve. |
| C37 TableSet text round-trip (unpadded) | As C36, over the blocks of a set. | **proved**. As C36. The name of the set is not written (C37_nameLost). |
| C38 Padded String() loses no integer value | As C36 for the padded printer, with round-to-nearest of integers to 53 bits. | **partial**. False for integers above 2^53 (C38_changed, C38_refused) and for 28 powers of two (C57). C38_roundTrip_partial: all other cells (PadSafe), tables without *Table columns; floats and times as the standard library converts them (PrintEnv.IsGo). |
| C39 The parser never panics and only returns valid tables | The parser as a total function; an invariant of its loop. | **proved**. For every reading of floats and times. |
| C40 Every name the API accepts can be parsed back | Which names the parser accepts, from the text of a one-table file. | **partial**. Column names agree exactly (C40_colName); table names exactly when ASCII (C40_tableName_partial), false otherwise (C40_notAscii). |
| C41 Merge combines matching rows by key | `Merge` modelled in three stages (collect, combine, clean); each stage has its own specification; the loop over neighbouring rows carries an invariant over runs of equal keys. | **proved**. C41_merge: success exactly if some key repeats and every column has a type that can be merged, and then the whole result (columns, types, one row per key, order, cells); otherwise an error. Both tables non-empty, keys without NaN, equal types of shared columns, no column named _TABLE_ or _DELETE_. C41_empty_receiver, C41_empty_argument, C41_no_keys: the other cases. C41_false: tables without a repeated key cannot be merged. |
| C42 Merging two cells prefers information | From the cell part of C41's specification and uniqueness of keys. | **proved**. For merged tables in which each input has distinct keys; the general case is part of IsMerge in C41_merge. |
| C43 Gob export/import preserves tables without sort keys and fails safely with them | Export and import modelled; `encoding/gob` is a parameter with the contract `GobOK`. | **partial**. First part proved for every table without sort keys, tables and times (C43_table) and for sets (C43_set; C43_duplicates: equal names are an error on decoding), for every encoder/decoder meeting GobOK (encoding/gob is not modelled). Second part false: any sort key panics (C43_keys). C43_decoded: what any decoded table satisfies. C43_noBuffers: decoding no buffers panics. |
| C44 JSON numbers preserve 64-bit integers | Rounding of an integer to float64 and back. | **partial**. False beyond 53 significant bits (C44_changed). C44_nearest_partial: an integer becomes a nearest integer of at most 53 significant bits; C44_iff: one of up to 62 bits survives exactly if it has at most 53 significant bits. |
| C45 CSV has one record per row with one field per column | `encoding/csv`'s writer modelled; reading is a specification of RFC 4180 as Go reads it (Spec/Csv). | **partial**. Two or more columns: everything is read back, with CR LF read as LF (C45_columns). In general records written as blank lines are skipped (C45_read_partial): false for one column with an empty text (C45_lost) and for CR LF (C45_changed). C45_refused: wrong headings. |
| C46 Walk terminates and visits each cell once, even on cyclic tables | Walk over a heap of tables; termination by the set of tables seen. | **proved**. Visitors that do not panic and do not change the tables. |
| C47 HasCircularReference is exact | As C46; the exact condition, and where it differs from circularity. | **partial**. Exact condition (C47_exact), no false negatives (C47_partial), exact for flat nested tables (C47_partial_flat); false in general (C47_false). |
| C48 CopyDeep returns an independent equal table | `CopyDeep` over a heap; negations by witness. | **partial**. False of the code in every respect (C48_false, C48_false_receiver, C48_false_fresh); C48_partial_flat: a flat receiver is returned itself. |
| C49 Setting sort keys to a wrong column keeps old keys | Negation by witness; what a failing call leaves behind. | **partial**. False (C49_false): a failing SetSortKeys drops the old keys. C49_partial states what it leaves behind. |
| C50 Trailing-zero trimming never changes a number | Trimming modelled; value of a decimal text defined independently. | **proved**. All texts with a point and decimal digits after it, all texts without a point. |
| C51 Uint8SliceEquals is equality | Direct. | **proved**.  |
| C52 Generated accessor names exist | Names of generated accessors against the list of accessors. | **partial**. All column types but *Table and time.Time, for which the generated names do not exist (C52_names_partial says both). |
| C53 IsValidTable accepts every reachable flat table | `IsValidTable` over a heap; converse direction for arbitrary tables. | **proved**. All well-formed tables (every reachable table is, C01); C53_detects: all tables whatsoever. |
| C54 Failed calls leave the table unchanged | From the individual models. | **proved**. For the 22 calls of Op.Atomic; SetSortKeys and AppendRowsFromTable are not atomic (C49, C29). |
| C55 Whole table sets: Equals, IsValidTableSet, Walk and Copy | From C25, C26, C27, C46, C53 over the tables of a set. | **proved**. Equals under the hypothesis of C26_partial, Copy for flat tables (C27), Walk on trees (C46). |
| C56 TableSet String() round-trip with the set's name | C38 over the blocks of a set. | **proved**. Sets of tables as in C38_roundTrip_partial; C56_badName: other set names. |
| C57 Padded text keeps floats | Model of strconv's float conversion; interval arithmetic on the neighbours of a float; exceptions found exactly. | **partial**. False for exactly 27 powers of two of type float64 (C57_exceptions64, C57_changed64) and one of type float32 (C57_changed32); C57_floats_partial: every other finite float comes back with its bits. |
| C58 Rows with too many or too few values are refused | The parser on a printed table followed by a damaged row. | **proved**. Table texts as StringUnpadded writes them (the basic column types), followed by a row with too many or too few values. |
| C59 JSON round-trip of tables and table sets | JSON writer of the package, `encoding/json`'s decoder and the reader modelled; induction over nesting. | **proved**. For every PrintEnv and JsonEnv with Go's float conversions; times are covered if their text is parsed back (C75 says which are). C59_float32: a float32 that is changed by being rounded twice. |
| C60 Reading JSON never panics and yields well-formed tables | Invariant of the reader for all JSON values; panics by witness. | **partial**. First part false (C60_false: seven valid JSON texts that panic). C60_noPanic_partial: no panic for every text that is not valid JSON or has the shape that GetTableSetAsJSON writes, whatever its names, types and values. C60_read: the second part, for all texts. |
| C61 Which tables can be written as JSON | The map of tables seen, against `OnceEach` (Spec/Json). | **proved**. C61_iff, C61_noCycle; C61_depth: the bound on recursion of the model does not matter; C61_shared: a shared table is refused though not circular. |
| C62 Which values survive being written as JSON | Which Go quoted texts are JSON texts, character by character. | **partial**. First sentence false (C62_false: a bell character, rune 0, infinities, NaN). C62_valid and C62_set say exactly when the text is valid JSON, C62_refused that otherwise nothing is read, C62_read what is read if it is. |
| C63 SortUnique keeps one row per key | `SortUnique` is `Merge` of the table with itself in the model as in the code; the result is derived from the theorem on the core of `Merge` (`merge_core`). | **proved**. C63_sortUnique: success exactly if all columns can be merged, and the whole result; C63_columns, C63_no_keys, C63_empty: the other cases; C63_distinct: distinct keys. Columns called _TABLE_ or _DELETE_ are excluded. |
| C64 Nest stores with every row the matching rows of the other table | `Nest` is a loop over rows in the model; the theorems on sorting (C17), searching (C20), extracting rows (C28) and the text round-trip (C36) are composed, with an invariant on overwritten cells. | **proved**. C64_nest: success exactly if every row has a match, and the whole result, with what the stored texts are read as. Receiver and argument are different tables. C64_no_keys: sort keys of the argument are never used, unlike the comment says. |
| C65 GetSortKeysAsTable lists the sort keys | Loop model of the rows that are added; induction over the keys. | **proved**. C65_keys: the whole table; C65_names: what is read from it. |
| C66 GetTableSetAsMap describes the set | The walk of tree.go with the visitors of yaml.go; induction over the depth of nesting, loop invariants over rows and cells. | **proved**. C66_map: success and the description; C66_sound: whenever it succeeds; C66_cycle: no bound on the recursion suffices if a table is nested in itself; C66_depth: the bound does not matter. |
| C67 Reading YAML gives the tables it was written from | yaml.v3 is a parameter with the contract `YamlOK`. The map of C66, changed by the contract, is read back: induction over the depth, with loop invariants; floats by the round-trip lemmas of C57. | **proved**. C67_set, for every library that meets the contract YamlOK (a text is read as the map it was made from, with whole floats below a million becoming int, as yaml.v3 does). |
| C68 What is written as YAML can be read | Reading what was written, by induction over the depth: no step panics, and the step at a whole `float64` fails. | **partial**. False of the code. C68_refused: every set with a float64 that is a whole number below a million, at any depth, is written and then refused with an error. C68_noPanic_partial: it is never met with a panic. C68_minusZero: -0 in a float32 column is read as 0. |
| C69 Reading any YAML gives valid tables or an error | Invariant of the reader on arbitrary maps, by induction over the depth. Witnesses for the panics. | **partial**. C69_read_partial: all of it but the last clause. C69_notYAML: what is not YAML gives an error. C69_false: ten documents that make it panic. C69_wraps: an integer that is too great is read as another number without an error. |
| C70 No two tables share memory | Memory as arrays at addresses, slices as address and length, `append` in place if there is room. Each sort of assignment (`Prim`, cited by line) keeps the tables separate and does what it does to lists; every call is a sequence of these; induction over calls. | **proved**. C70_memory: from no tables; C70_keeps: from any separate tables; C70_others: calls to other tables leave a table alone. A call is any sequence of the assignments listed in Model/Slices.lean that has the effect of the call in the by-value model; that there is one is proved for each of the 42 kinds of calls. |
| C71 One table out of a text of several | The names in a set that was read are distinct (C35), so that the search by name is unique; with C56 and C59 for sets that were written. | **proved**. C71_byName, C71_byIndex, C71_only for every text; C71_written for every set that String() keeps; C71_json, C71_jsonWritten for JSON. |
| C72 Tables in files | `WriteFile` puts the text of `String` on the disk, `NewTableSetFromFile` parses what is there; with C38 and C56. | **proved**. The file system is a function from names to contents, with permissions and equality of names as parameters. The path with which a file is opened is assumed to be a name of the same file (OpensAs). |
| C73 A column as texts | `Shown` says what the text of a value is. Induction over the rows. | **partial**. C73_column and C73_join hold throughout. Missing columns are errors only in tables that have rows (C73_missing_partial): with no rows there is no error (C73_empty). |
| C74 Asking about cells and columns, and the forms that panic | Cases over the lookup of a column (`WF.colIndex_cases`) and of a row. | **proved**. C74_hasCell, C74_types, C74_noColumn, C74_mustGet, C74_mustSet, C74_mustSetByColIndex. |
| C75 Times come back from their texts | The Gregorian calendar by cycles of 400, 100, 4 and 1 years, and its inverse; digits and their values; the pattern of the parser as a scanner. `omega` on the divisions. | **partial**. Holds in JSON for the years 0 to 9999 and zones of whole minutes (C75_parse, C75_json), and in table text if moreover the fraction of a second has nine digits or none (C75_text_partial). False otherwise: C75_fraction and C75_halfSecond (other fractions cannot be read), C75_zone (seconds of the zone are dropped), C75_years (the year 10000 is read as the year 0). C75_calendar: the dates written are those of the Gregorian calendar. C75_characters: the text, character by character. |
| C76 NewTreeTable adds levels to a tree of tables and changes no other table | Invariant over the loops: memory below the old length is unchanged and all tables are well-formed; a replaced nil table has no rows, so the recursion ends at once. | **partial**. Holds: it changes no existing table and returns its receiver (C76_unchanged), refuses negative depths (C76_negative), succeeds for depth 0 or without columns of tables (C76_trivial_partial). False: the promise to add levels; cells that stand for no table stay so (C76_noLevel): the tree is built in a copy that is thrown away. |
| C77 ParentTable is the table that holds the table | `Stored` describes both setters at once. For the parser an invariant beside that of C39, with the last column of a struct as an exception until its value is stored. | **partial**. Holds after SetTable and SetTableByColIndex of a table that no other table holds (C77_store_partial), after new rows (C77_appendRow) and in every table read from a text (C77_text). C77_sets: exactly one parent is set. False otherwise: the tables of a new column have no parent (C77_appendCol), a table that was replaced keeps its parent (C77_replaced), a failed SetTable sets the parent (C77_sets), the tables held by a copy have the original as parent (C77_copy). |
| C78 JSON with line breaks is read like JSON without | `json.Indent` is modelled byte by byte (Go/JsonIndent). For every text that the decoder accepts, by induction over the decoder's bound: decoding the output of the loop gives the same value and the loop's output for the rest. What a string or number decodes to does not depend on what follows; the bounds of decoder and table reader are shown not to matter. | **proved**. C78_set, C78_table: read alike. C78_bytes: only white space differs. C78_refused: when there is a text (times may be any plain text, names ASCII). C78_roundTrip: C59 for the indented form. |
| C79 StringNested prints every nested table once and changes nothing | `stringNested` carries memory and text through the recursion. By induction over the depth, with a loop invariant over the cells that are left: the subtrees of different cells are disjoint, so each is still as at the start when it is reached; the text of a table depends on the memory only through the names of the tables in its cells. New names are valid because they consist of name bytes and contain an underscore. | **partial**. C79_text: the text, for every tree of tables. That nothing changes is false (C79_changed): nested tables keep the name under which they were printed, nil tables become tables with a name; a second call prints other names. C79_renamed: exactly what is changed. C79_kept_partial: in any memory, nothing but names. C79_endless: a cycle never ends. C79_clash: tables of different names can be printed under the same name. |
| C80 String has a text for every table, and its columns line up | The main point is `rounded_lt`: if the shortest decimal of a float is below 10^m, then so is the float rounded to any greater precision - otherwise the search for the shortest decimal would have stopped earlier, at a multiple of 10^m or at 10^m itself, because the gap above a float is at least that below it (`units_convex`). Code points are additive at spaces, because a space is no continuation byte. | **partial**. C80_string: there is a text. C80_aligned_partial, C80_start: the columns line up if integers are at most 2^53 in magnitude; false otherwise (C80_tooWide: 9999999999999999 is written as 10000000000000000, wider than its column). C80_unpadded: StringUnpadded is empty exactly for tables with a row and a column of type byte, []byte, []uint8 or time.Time. |
| C81 The generated struct type and functions compile and carry tables to structs and back | `Spec/GoLang.lean` has the part of Go that the generated text needs: syntax with its text, the rules of declarations, scopes and types (`Program.compiles`), and what a function does (`Func.run`) with the table methods of the model. `Spec/Generated.lean` has the intended programs. The texts are equal to those of the programs by induction over the columns; the compiler's checks go through column by column with an invariant on the names in scope; runs by invariants on the variables of the loops. | **partial**. C81_text ties the generators to the programs; the others are about these programs under `Usable`: names that do not clash with the generated text, no *Table or time.Time columns, no nil byte slices for the way to a table. Otherwise it is false: C81_columnTaken (table, err, nil, _, keywords, the table's own name), C81_tableTaken, C81_types (do not compile), C81_rowIndex (an int column named rowIndex compiles, but values end up in other structs or the function panics), C81_nilBytes. |
| C82 Rows of table text are read by a grammar, and nothing of them is ignored | `Spec/Values.lean` has the grammar as relations between texts and values. Each scanner is equivalent to its relation: for longest matches, soundness and that no longer match exists; for the patterns without anchor, that no earlier match exists. Rows by induction over the columns, lines by induction over the lines with the parser's state. That `nearest` is the nearest float follows from the two neighbours by monotonicity. | **partial**. C82_rows is the equivalence with a grammar in which text may be skipped before a rune, a NaN and a time, as in the code; C82_float64 and C82_float32 say which float a number is, with strconv as modelled (C82_floats). That nothing is ignored is proved for tables without columns of types rune, float32, float64 and time.Time (C82_nothingIgnored_partial); it is false for these (C82_ignored). |
| C83 A text is read by a grammar | `Spec/Document.lean` has the grammar of lines, words, names, tables and structs as relations; rows and values are those of C82. The loop of the parser is first shown to be a fold over the trimmed lines without comments; each step is equivalent to one rule; then soundness by strong induction on the number of lines and completeness by induction on the derivation, with rows and fields by inner inductions. | **proved**. C83_text is the equivalence with the grammar of Spec/Document.lean, C83_error says that all other texts are errors, C83_oneTable is NewTableFromString. The grammar has the places where the code loses text without an error (C83_lost) and, in rows, those of C82. |
| C84 The line that an error names | `Model/ParserPos.lean` follows the counter of lines next to the parser. That an earlier text can be saved is shown by giving the line that saves it, in each state of the parser (a blank line, or as many types as there are names); that a later one cannot, because the states after the same lines are the same. | **partial**. C84_error: there is a line to name exactly if there is an error. C84_hopeless: no continuation of the text up to the named line is read. C84_first_partial: before the named line the text could be saved, unless the line before it names a column twice. C84_unnamed: only a column that is named twice gives an error without a line. False in general (C84_late, C84_lateHopeless): a column that is named twice is noticed only at the line with the types, and then without a line; after a comment at the end of the text the error names a line that does not exist. |
| C85 A table is its columns and rows and nothing else | Every call is proved to do what the specification says, by the case lemmas of the earlier properties and new ones for the NaN setters and the calls that copy from another table; combinators (`Try`, `Only`, `Then`, `Each`) carry this to the calls that are loops of others. The induction over histories uses C01. That contents decide behaviour follows because the specification is a partial function; sorting and shuffling are compared directly. | **proved**. Spec/Plain.lean says for each call what it may do to a table without its lookup map. C85_step: one call does that. C85_history: so does every history, with its list of verdicts. C85_sure: the specification leaves no choice but in sorting and shuffling. C85_same, C85_same_history: tables with the same contents behave the same, sorting and shuffling included. C85_reads: lookups by name too. |
| C86 Shuffling is fair | The loop is proved to commute with a renaming of the rows, so that an order of positions stands for all tables; that each order is reached once is an induction from the last row down: the first draw is the place of the row that ends up last, and the rows above a position are left alone by the rest of the loop. | **proved**. C86_order: the draws alone decide the order. C86_fair: every order comes from exactly one sequence of draws. C86_unique: two sequences of draws that agree on one table with distinct rows are the same. C86_all: every arrangement of the rows is reached, also if rows repeat. That the random source draws evenly is not part of the code. |
| C87 The error about a circular reference names the tables | Model/CircRef.lean repeats the visitor with the error value it returns. A simulation lemma for walks ties its verdict to C47. C87_partial is an invariant of the walk, kept also by failing steps; C87_partial_flat an invariant of the two loops: the tables remembered are the receiver and those in the cells before the present one. | **partial**. False of the code: C87_false (a table that holds itself, found by Walk first, gives an error without a CircRefError), C87_false_has (the error of HasCircularReference never has one). C87_verdict: where there is an error at all is what C47 says. C87_partial: a CircRefError names the receiver and a table in one of its cells. C87_partial_flat: where the nested tables hold no tables, every error of IsValidTableNesting has a CircRefError, and its table is the receiver or stored in two of its cells. |
| C88 Cell infos describe the cell | From the well-formedness of tables (C01), which ties the lookup map to the lists of names and types. | **partial**. False of the code: C88_false_row (an info for a row that does not exist), C88_false_col (a panic instead of an error). C88_partial: for a column that exists, both ways give its name, type and position. C88_partial_noColumn: an unknown name is an error. C88_partial_info: whatever is returned describes a column of the table. |
| C89 UtilRound rounds to the nearest number | Division with remainder on fractions of whole numbers. | **partial**. False of the code: C89_false (-0.25 gives -1), C89_negative (negative numbers are always rounded down). C89_partial: numbers that are not negative are rounded to the nearest, half way up. C89_whole: multiples are left as they are. The arithmetic is exact here; in floating point it is so for places = 0. |
| C90 String flags of commands | Induction over the calls. | **proved**. C90_flag: all sequences of calls of Set. C90_check: UtilCheckStringFlag. C90_agree: the two agree. |
| C91 Which names are accepted | The tests of bytes are compared with the specification on all 256 bytes, then induction over the name; the calls by the case lemmas of C07 and C10. | **partial**. False of the code: C91_false (a letter outside ASCII is refused, a fraction sign is accepted, because each byte is taken for a character). C91_partial: exactly the identifiers that are not types, for all names in ASCII and all the calls. C91_same: tables and columns accept the same names, for all texts. |

## What is modelled

| File in `/repo` | Modelled | Not modelled |
| --- | --- | --- |
| gotables.go | Tables, rows, columns, cells, names, zero values, shuffling, reversing, reordering, copying, `Equals`, `IsValidTable`, table sets, `String`, `StringUnpadded`, CSV, appending from tables, files (with the file system as a parameter), columns as texts, `StringNested`, `...MustMake`/`...MustGet` as far as named in the citations | `isValidTableNesting1`, messages |
| helpers.go | Typed getters and setters of all types by name and by index, `Get...MustGet` as far as named in the citations, byte slice equality, `Set...MustSet` | |
| parser.go | The whole parser, with the numbers of lines in errors (C84) | The text of messages |
| sort.go | Keys, `Sort`, `SortByKeys`, searching, `CompareRows`, `SortUnique`, ordering of columns | |
| merge.go | All | |
| json.go | `GetTable(Set)AsJSON`, `NewTable(Set)FromJSON`, `NewTableFromJSONByTableName`, `GetTable(Set)AsJSONIndent` | `checkJsonDecodeError` |
| gob.go | All, with `encoding/gob` as a parameter | |
| tree.go | `Walk`, `HasCircularReference`, `CopyDeep`, `NewTreeTable`, cell infos | `NewTreeTable1` (debugging output) |
| generate.go | Accessor names; the text of the struct type and of the functions between tables and slices of structs. `Spec/GoLang.lean` describes the little of Go that these texts use, and is trusted as a description of Go | The loops over table sets, nil pointers |
| nest.go | All | |
| yaml.go | `GetTableSetAsMap`, `GetTableSetAsYAML`, `NewTableSetFromYAML` with yaml.v3 as a parameter | `isValidYAML` (unused) |
| errors.go | `CircRefError` and its functions (C87) | The text of messages |
| util.go | `UtilRound` (C89), `UtilStringFlag`, `UtilCheckStringFlag` (C90) | Names of callers, files, pipes |
| cmd/ | | All. `gotecho` and `gotsyntax` do not compile at this commit: they call `TableByTableIndex` and `Table` of a table set, which do not exist. |

`nil` receivers are not modelled: a method starts with a check that returns an error (or an empty result), or hands on to one that does. The exceptions among the exported methods, which panic on `nil`, are `Table.SortKeyCount`, `Table.GetValMustGet` and `TableSet.GobEncode`. The constants `debugging` and `printCaller` are false, their branches are left out.

## Library code

| Library | How it enters |
| --- | --- |
| `strconv` integers, `Quote`, `Unquote`, `UnquoteChar` | Modelled after the source. `IsPrint` above U+00FF is an arbitrary table. |
| `strconv` floats | `ParseFloat` = nearest float, ties to even; `FormatFloat(-1)` = shortest digits that read back, nearest to the float among these; `FormatFloat(prec)` = nearest decimal. Proved to round-trip (C36_floats, C57). |
| `unicode/utf8` | Modelled. |
| `regexp` | Each regular expression of the parser is a hand-written scanner, cited by line. |
| `sort.Sort` | `GoSort`: for a strict weak order the result is a sorted permutation. `insertionSort` is an instance. Theorems hold for every instance. |
| `sort.Ints` | Contract. |
| `math/rand` | Arbitrary choices. |
| `strings.ToLower` | Arbitrary function. |
| `time` formatting and parsing | RFC3339 modelled after the source: `goFormatTime`, `goParseTime`. What `time.Parse` accepts beyond `parseRFC3339` is a parameter. Overflow of seconds beyond 64 bits is left out. Elsewhere arbitrary functions. |
| `encoding/csv` writer | Modelled after the source with default settings. |
| `encoding/json` decoder | Modelled after the source (`UseNumber`); the limit of 10000 nested values is left out. |
| `gopkg.in/yaml.v3` | Parameter with the contract `YamlOK`: strings and times in given sets are preserved, integers become `int` (`uint64` if too great), floats go through their digits and become `int` if these are a whole number below a million. |
| `encoding/gob` | Parameter with the contract `GobOK`. |
| Conversion of out-of-range floats to integers | Implementation-defined in Go: a parameter (`CastOK`). |

## Where the code does not do what one expects

Each is a theorem; the witness is beside it.

* `SwapCols` moves the headings but not the cells (C02).
* Renaming or deleting a key column makes `Sort` panic (C11). `SearchLast` panics when all rows come after the values (C19). `CompareRows` ignores reversed keys (C22).
  `OrderColsBySortKeys` panics on duplicate keys (C24). A failing `SetSortKeys` drops the old keys (C49).
* `Equals` compares nested tables by the wrong column when columns are in different order (C26). `AppendRowsFromTable` leaves rows behind when it fails (C29).
* A plus sign is refused in unsigned columns (C33). Integers beyond 2^53 change in `String()` (C38) and JSON (C44). 28 powers of two change in `String()` (C57).
* Names with Latin-1 letters are accepted by the API and refused by the parser (C40).
* `Merge` fails unless some key repeats, and for any column of type byte, rune, slice, table or time (C41). With an empty table the other table itself, not a copy, is returned.
* `Nest` ignores the sort keys of its argument, and leaves the new column behind when it fails (C64). `SortUnique` returns an empty table itself, not a new one (C63).
* Gob: a sort key makes the encoder panic; decoding no buffers panics (C43).
* The values of a missing column of a table without rows are no error (C73).
* A time with one to eight digits of a fraction of a second, half past a second for example, is written so that it cannot be read; the year 10000 is read as the year 0 (C75).
* `NewTreeTable` builds its tree in a copy and returns the table it was called on, unchanged (C76).
* `ParentTable` is nil for the tables of a new column, stale after a replacement, and set by a `SetTable` that fails (C77).
* `StringNested` renames the tables it prints, so that a second call gives another text; nil tables become named tables; different tables can get the same name (C79).
* `String()` writes integers through a float64, so that 9999999999999999 becomes 10000000000000000, wider than its column; `StringUnpadded()` is empty for tables with a row and bytes, byte slices or times (C80).
* Code generated from a table does not compile if a column is named `table` (unless last), `err`, `nil`, `_`, like a keyword or like the table, if the table is named like a variable of the text, or if a column has type `*Table` or `time.Time`; with an `int` column named `rowIndex` it compiles and mixes up the rows; structs with a nil byte slice are refused (C81).
* The patterns of runes, NaN and times are not anchored: in the row `oops'a'` of a rune column, `oops NaN` of a float column and `12020-01-02T03:04:05Z` of a time column the beginning is silently ignored (C82).
* A text that ends with the names of columns, without a newline, is read as a table without columns: `[T]\na b` has no columns and no error, but `[T]\na b\n` is an error. After the first line of a struct without values, whatever follows the type is ignored: in `[T]\na int\nb int = 5` the 5 is lost. In a struct with values whatever stands between type and equals sign is ignored (C83).
* An error of the parser may name the wrong line: a column that is named twice is reported at the line with the types, without a line number if the types are right; a text that ends with a comment where the types should be names a line beyond its end (C84).
* `SetColFloatCellsToNaN` and `SetColFloatCellsToNaNByColIndex` on a table without rows succeed for columns that are not floats, the latter also for columns that do not exist; with rows they return an error (C85).
* `HasCircularReference` makes its error from the text of another with `%s`, and `Walk` formats its `CircRefError` with `%s` though the comment says it wraps it: `HasCircRefError` is false of both (C87).
* `GetCellInfo` does not look at the row, and `GetCellInfoByColIndex` panics for a column that does not exist (C88).
* `UtilRound` rounds negative numbers down, `UtilRound(-0.25, 0)` is -1 (C89).
* Names are checked byte by byte: `é` is refused and `½` is accepted (C91).
* CSV: one column with an empty text is written as a blank line, which readers skip (C45).
* `HasCircularReference` reports tables nested two deep as circular (C47), so that `Copy` refuses them; `CopyDeep` neither copies nor leaves the receiver alone (C48). JSON export refuses a table stored in two cells (C61).
* Accessor names for `*Table` and `time.Time` do not exist (C52).
* Reading JSON of another shape panics (C60). Strings with control characters, the rune 0, infinities and NaN are written as invalid JSON (C62). A float32 is rounded twice (C59).
* YAML: a table nested in itself is not detected, unlike in JSON (C66). A whole `float64` below a million, for example that of a new row, cannot be read back (C68). Documents of another shape panic, numbers wrap around, errors of writing are dropped (C69).

## Trusted base

* Lean 4.33.0 kernel. Axioms used by the theorems: at most `propext`, `Classical.choice`, `Quot.sound`. No axioms of our own, no `sorry`, no `native_decide`, no `bv_decide`.
  Concrete witnesses are checked with `decide +kernel` or `rfl`, by the kernel.
* The fidelity of the hand-written model to the Go text in `/repo`, by inspection: every definition cites its source lines and says where it simplifies.
* The models and contracts of library code listed above.
* The specifications in `Spec/`, which are meant to be read.
