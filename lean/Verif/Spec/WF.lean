import Verif.Model.Types

/-!
# Specification vocabulary: well-formed tables and what a table contains

Nothing here refers to the functions of the model; only to the data types.
-/

namespace Verif

variable {τ : Type}

/-- `c` is a value of the Go type behind the column type `ty`: the right dynamic type, integers in range, no nil `*Table`. -/
def Cell.HasType : ColType → Cell τ → Prop
  | .string, .str _ => True
  | .bool, .bool _ => True
  | .float32, .f32 _ => True
  | .float64, .f64 _ => True
  | .byteSlice, .bytes _ => True
  | .uint8Slice, .bytes _ => True
  | .table, .tbl (some _) => True
  | .time, .time _ => True
  | .byte, .int .uint8 v => 0 ≤ v ∧ v ≤ 255
  | .uint8, .int .uint8 v => 0 ≤ v ∧ v ≤ 255
  | .uint16, .int .uint16 v => 0 ≤ v ∧ v ≤ 65535
  | .uint32, .int .uint32 v => 0 ≤ v ∧ v ≤ 4294967295
  | .uint64, .int .uint64 v => 0 ≤ v ∧ v ≤ 18446744073709551615
  | .uint, .int .uint v => 0 ≤ v ∧ v ≤ 18446744073709551615
  | .int8, .int .int8 v => -128 ≤ v ∧ v ≤ 127
  | .int16, .int .int16 v => -32768 ≤ v ∧ v ≤ 32767
  | .int32, .int .int32 v => -2147483648 ≤ v ∧ v ≤ 2147483647
  | .rune, .int .int32 v => -2147483648 ≤ v ∧ v ≤ 2147483647
  | .int64, .int .int64 v => -9223372036854775808 ≤ v ∧ v ≤ 9223372036854775807
  | .int, .int .int v => -9223372036854775808 ≤ v ∧ v ≤ 9223372036854775807
  | _, _ => False

/-- A row fits the column types: one cell per column, each of its column's type. -/
def RowOK (types : List ColType) (row : List (Cell τ)) : Prop :=
  row.length = types.length ∧
  ∀ (i : Nat) (ty : ColType) (c : Cell τ), types[i]? = some ty → row[i]? = some c → c.HasType ty

/-- Column types a sort key may have (the keys of `compareFuncs`, sort.go:39-54). -/
def ColType.Sortable : ColType → Bool
  | .bool | .float32 | .float64 | .uint | .int | .int16 | .int32 | .int64 | .int8 | .string
  | .uint16 | .uint32 | .uint64 | .uint8 => true
  | _ => false

/-- A well-formed table. -/
structure WF (t : Table τ) : Prop where
  /-- column names are distinct … -/
  namesNodup : t.colNames.Nodup
  /-- … and valid -/
  namesValid : ∀ n ∈ t.colNames, isValidColName n = true
  /-- one type per column -/
  typesLen : t.colTypes.length = t.colNames.length
  /-- the lookup map has each key once … -/
  mapKeys : (t.colMap.map Prod.fst).Nodup
  /-- … and finds exactly the position of each column -/
  mapIff : ∀ (n : GoStr) (i : Nat), t.colMap.get? n = some i ↔ t.colNames[i]? = some n
  /-- every row has one cell of the right type per column -/
  rowsOK : ∀ row ∈ t.rows, RowOK t.colTypes row
  /-- a nil table placeholder has no columns and no rows -/
  nilEmpty : t.isNilTable = true → t.colNames = [] ∧ t.rows = []
  /-- any other table has a valid name -/
  nameValid : t.isNilTable = false → isValidTableName t.name = true
  /-- sort keys have a comparison function and a valid name -/
  keysOK : ∀ k ∈ t.sortKeys, k.colType.Sortable = true ∧ isValidColName k.colName = true

/-- Cell `c` stands in the column named `n`, row `r`. -/
def At (t : Table τ) (n : GoStr) (r : Nat) (c : Cell τ) : Prop :=
  ∃ (i : Nat) (row : List (Cell τ)), t.colNames[i]? = some n ∧ t.rows[r]? = some row ∧ row[i]? = some c

/-- The table has a column named `n` of type `ty`. -/
def HasColT (t : Table τ) (n : GoStr) (ty : ColType) : Prop :=
  ∃ (i : Nat), t.colNames[i]? = some n ∧ t.colTypes[i]? = some ty

/-- `c` is the zero value of column type `ty`; for a `*Table` column some table is stored. -/
def Cell.IsZero : ColType → Cell τ → Prop
  | .string, c => c = .str []
  | .bool, c => c = .bool false
  | .float32, c => c = .f32 0
  | .float64, c => c = .f64 0
  | .byteSlice, c => c = .bytes (some [])
  | .uint8Slice, c => c = .bytes (some [])
  | .byte, c => c = .int .uint8 0
  | .uint8, c => c = .int .uint8 0
  | .uint16, c => c = .int .uint16 0
  | .uint32, c => c = .int .uint32 0
  | .uint64, c => c = .int .uint64 0
  | .uint, c => c = .int .uint 0
  | .int8, c => c = .int .int8 0
  | .int16, c => c = .int .int16 0
  | .int32, c => c = .int .int32 0
  | .rune, c => c = .int .int32 0
  | .int64, c => c = .int .int64 0
  | .int, c => c = .int .int 0
  | .time, c => c = .time minTime
  | .table, c => ∃ x, c = .tbl (some x)

/-- The two tables agree on everything but the rows. -/
def SameHeader (t t' : Table τ) : Prop :=
  t'.name = t.name ∧ t'.colNames = t.colNames ∧ t'.colTypes = t.colTypes ∧ t'.colMap = t.colMap ∧
  t'.sortKeys = t.sortKeys ∧ t'.isStructShape = t.isStructShape ∧ t'.isNilTable = t.isNilTable ∧ t'.parent = t.parent

end Verif
