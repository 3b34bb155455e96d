import Verif.Model.FromTable

/-!
# Merging two tables by key (merge.go)

The two tables are passed by value: the call is modelled for a receiver and an argument that are different tables.
-/

namespace Verif

variable {τ : Type}

namespace Table

/-- `err = f(...); if err != nil { return nil, err }` for a call that changes the table under construction, which is dropped on an error. -/
def orDrop (r : Table τ × Out Unit) : Out (Table τ) :=
  match r with
  | (t, .ok ()) => .ok t
  | (_, .err e) => .err e
  | (_, .panic) => .panic

/-- `setSortKeysBetweenTables` (merge.go:62-81): the keys of the first table dominate. -/
def setSortKeysBetween (t1 t2 : Table τ) : (Table τ × Table τ) × Out Unit :=
  if t1.sortKeys.length > 0 then
    let (t2', o) := t2.setSortKeysFromTable t1
    ((t1, t2'), o)
  else if t2.sortKeys.length > 0 then
    let (t1', o) := t1.setSortKeysFromTable t2
    ((t1', t2), o)
  else ((t1, t2), .err .noSortKeys)

/-! ## One pair of cells -/

/-- `reflect.ValueOf(v).Int()`; `none` is its panic for other kinds. -/
def reflectInt : Cell τ → Option Int
  | .int .int8 v | .int .int16 v | .int .int32 v | .int .int64 v | .int .int v => some v
  | _ => none

/-- `reflect.ValueOf(v).Uint()`; `none` is its panic for other kinds. -/
def reflectUint : Cell τ → Option Int
  | .int .uint8 v | .int .uint16 v | .int .uint32 v | .int .uint64 v | .int .uint v => some v
  | _ => none

/-- `reflect.ValueOf(v).Float()`, as the pair of `val == 0.0` and `math.IsNaN(val)`; `none` is its panic for other kinds.
Simplification: the conversion of a float32 to float64 is exact, so both tests may be made on the float32. -/
def reflectFloat : Cell τ → Option (Bool × Bool)
  | .f32 b => some (f32Eq b 0, isNaN32 b)
  | .f64 b => some (f64Eq b 0, isNaN64 b)
  | _ => none

/-- `val != ""` for the result of `GetStringByColIndex`. -/
def stringNonZero : Cell τ → Option Bool
  | .str s => some (decide (s ≠ []))
  | _ => none

/-- `val != false` for the result of `GetBoolByColIndex`. -/
def boolNonZero : Cell τ → Option Bool
  | .bool b => some (decide (b ≠ false))
  | _ => none

/-- The cases "string", "bool" and the integer types of the switch (merge.go:272-371): read both cells, test them against the zero value,
copy the first one down if it is not zero, else the second one up if it is not zero. -/
def mergeSoft (get : Table τ → Int → Out (Cell τ)) (set : Table τ → Int → Cell τ → Table τ × Out Unit) (nonZero : Cell τ → Option Bool)
    (row1 row2 : Int) (t : Table τ) : Table τ × Out Unit :=
  match get t row1 with
  | .err e => (t, .err e)
  | .panic => (t, .panic)
  | .ok val1 =>
    match nonZero val1 with
    | none => (t, .panic)
    | some nonZero1 =>
      match get t row2 with
      | .err e => (t, .err e)
      | .panic => (t, .panic)
      | .ok val2 =>
        match nonZero val2 with
        | none => (t, .panic)
        | some nonZero2 =>
          if nonZero1 then set t row2 val1
          else if nonZero2 then set t row1 val2
          else (t, .ok ())

/-- The case "float32", "float64" of the switch (merge.go:372-415). -/
def mergeFloat (ci : Int) (row1 row2 : Int) (t : Table τ) : Table τ × Out Unit :=
  match t.getValByColIndex ci row1 with
  | .err e => (t, .err e)
  | .panic => (t, .panic)
  | .ok tmp1 =>
    match reflectFloat tmp1 with
    | none => (t, .panic)
    | some (isZero1, isNaN1) =>
      match t.getValByColIndex ci row2 with
      | .err e => (t, .err e)
      | .panic => (t, .panic)
      | .ok tmp2 =>
        match reflectFloat tmp2 with
        | none => (t, .panic)
        | some (isZero2, isNaN2) =>
          if !isZero1 && !isNaN1 then t.setValByColIndex ci row2 tmp1
          else if !isZero2 && !isNaN2 then t.setValByColIndex ci row1 tmp2
          else if isNaN1 then t.setValByColIndex ci row1 tmp2
          else if isNaN2 then t.setValByColIndex ci row2 tmp1
          else (t, .ok ())

/-- The switch on the column type (merge.go:266-425): merge the cells of column `ci` of two rows. -/
def mergeCells (ci row1 row2 : Int) (t : Table τ) : Table τ × Out Unit :=
  match t.colTypeByColIndex ci with
  | .err e => (t, .err e)
  | .panic => (t, .panic)
  | .ok .string =>
    mergeSoft (fun t r => t.getTypedByColIndex .string ci r) (fun t r v => t.setTypedByColIndex .string ci r v) stringNonZero row1 row2 t
  | .ok .bool =>
    mergeSoft (fun t r => t.getTypedByColIndex .bool ci r) (fun t r v => t.setTypedByColIndex .bool ci r v) boolNonZero row1 row2 t
  | .ok .int8 | .ok .int16 | .ok .int32 | .ok .int64 | .ok .int =>
    mergeSoft (fun t r => t.getValByColIndex ci r) (fun t r v => t.setValByColIndex ci r v)
      (fun c => (reflectInt c).map (fun v => decide (v ≠ 0))) row1 row2 t
  | .ok .uint8 | .ok .uint16 | .ok .uint32 | .ok .uint64 | .ok .uint =>
    mergeSoft (fun t r => t.getValByColIndex ci r) (fun t r v => t.setValByColIndex ci r v)
      (fun c => (reflectUint c).map (fun v => decide (v ≠ 0))) row1 row2 t
  | .ok .float32 | .ok .float64 => mergeFloat ci row1 row2 t
  | .ok .byteSlice | .ok .uint8Slice | .ok .byte | .ok .rune | .ok .table | .ok .time => (t, .err .badColType)

/-! ## The passes over the rows -/

/-- The names of the two temporary columns (merge.go:161, 236). -/
def tableNumberColName : GoStr := gs! "_TABLE_"
def deleteColName : GoStr := gs! "_DELETE_"

/-- One step of the loop over neighbouring rows (merge.go:246-440); the last two columns are the temporary ones. -/
def mergeRowStep (lower : GoStr → GoStr) (rowIndex : Nat) (t : Table τ) : Table τ × Out Unit :=
  match t.compareRows lower rowIndex (rowIndex + 1) with
  | .err e => (t, .err e)
  | .panic => (t, .panic)
  | .ok comparison =>
    if comparison = 0 then
      match forEach (fun (ci : Nat) (t : Table τ) => mergeCells ci rowIndex (rowIndex + 1) t) (List.range (t.colCount - 2)) t with
      | (t', .ok ()) => t'.setTyped .bool deleteColName rowIndex (.bool true)
      | r => r
    else (t, .ok ())

/-- The loop over all but the last row (merge.go:246-440).  The number of rows and columns does not change on the way. -/
def mergeRows (lower : GoStr → GoStr) (t : Table τ) : Table τ × Out Unit :=
  forEach (mergeRowStep lower) (List.range (t.rowCount - 1)) t

/-- `copyTableCells` (merge.go:486-512): copy every cell of `src`, by column name, to the rows from `beginRow` on. -/
def copyTableCells (src : Table τ) (beginRow : Nat) (targ : Table τ) : Table τ × Out Unit :=
  forEach (fun (srcCol : Nat) (targ : Table τ) =>
    match src.colName srcCol with
    | .err e => (targ, .err e)
    | .panic => (targ, .panic)
    | .ok n =>
      forEach (fun (srcRow : Nat) (targ : Table τ) =>
        match src.getValByColIndex srcCol srcRow with
        | .err e => (targ, .err e)
        | .panic => (targ, .panic)
        | .ok v => targ.setVal n ((beginRow + srcRow : Nat) : Int) v) (List.range src.rowCount) targ) (List.range src.colCount) targ

/-- The loops that write the table number (merge.go:197-202, 212-217): rows `first` to `first + howMany - 1`. -/
def setTableNumber (first howMany : Nat) (number : Int) (t : Table τ) : Table τ × Out Unit :=
  forEach (fun (r : Nat) (t : Table τ) => t.setTyped .int tableNumberColName r (.int .int number)) (List.range' first howMany) t

/-! ## Merge -/

/-- The first part of the new table (merge.go:137-217): columns of both tables, then all rows of both. -/
def mergeCollect (nt : Nat → Nat → τ) (t1 t2 : Table τ) : Out (Table τ) :=
  (newTable (gs! "Merged")).bind fun m =>
  (orDrop (m.appendColsFromTable nt t1)).bind fun m =>
  (orDrop (m.appendColsFromTable nt t2)).bind fun m =>
  (orDrop (m.setSortKeysFromTable t1)).bind fun m =>
  (orDrop m.orderColsBySortKeys).bind fun m =>
  (orDrop (m.appendCol nt tableNumberColName (gs! "int"))).bind fun m =>
  (orDrop (m.appendRows nt ((t1.rowCount + t2.rowCount : Nat) : Int))).bind fun m =>
  (orDrop m.setAllFloatCellsToNaN).bind fun m =>
  (orDrop (t1.copyTableCells 0 m)).bind fun m =>
  (orDrop (m.setTableNumber 0 t1.rowCount 1)).bind fun m =>
  (orDrop (t2.copyTableCells t1.rowCount m)).bind fun m =>
  orDrop (m.setTableNumber t1.rowCount (m.rowCount - t1.rowCount) 2)

/-- The second part (merge.go:219-440): sort, and merge neighbouring rows with equal keys. -/
def mergeCombine (nt : Nat → Nat → τ) (srt : GoSort (List (Cell τ))) (lower : GoStr → GoStr) (m : Table τ) : Out (Table τ) :=
  (orDrop (m.appendSortKey tableNumberColName)).bind fun m =>
  (orDrop (m.sort srt lower [])).bind fun m =>
  (orDrop (m.deleteSortKey tableNumberColName)).bind fun m =>
  (orDrop (m.appendCol nt deleteColName (gs! "bool"))).bind fun m =>
  orDrop (m.mergeRows lower)

/-- The last part (merge.go:442-483): delete the marked rows and the temporary columns, and sort. -/
def mergeClean (srt : GoSort (List (Cell τ))) (lower : GoStr → GoStr) (t1 m : Table τ) : Out (Table τ) :=
  (orDrop (m.setSortKeys [deleteColName])).bind fun m =>
  (orDrop (m.sort srt lower [])).bind fun m =>
  (m.searchRange lower [.bool true]).bind fun range =>
  (orDrop (m.deleteRows range.1 range.2)).bind fun m =>
  (orDrop (m.deleteCol deleteColName)).bind fun m =>
  (orDrop (m.deleteCol tableNumberColName)).bind fun m =>
  (orDrop (m.setSortKeysFromTable t1)).bind fun m =>
  orDrop (m.sort srt lower [])

end Table

/-- Which table the pointer returned by `Merge` denotes: the receiver, the argument or a new table. -/
inductive MergeResult (τ : Type) where
  | receiver
  | argument
  | fresh (t : Table τ)
deriving DecidableEq

namespace Table

/-- `Merge` (merge.go:58-484): the receiver and the argument afterwards, and the result. -/
def merge (nt : Nat → Nat → τ) (srt : GoSort (List (Cell τ))) (lower : GoStr → GoStr) (t1 t2 : Table τ) :
    (Table τ × Table τ) × Out (MergeResult τ) :=
  if t1.rowCount = 0 then
    -- `sortMerged(table2)` (merge.go:84-98)
    let r := if t2.sortKeys.length = 0 then setSortKeysBetween t1 t2 else ((t1, t2), .ok ())
    match r with
    | (ts, .err e) => (ts, .err e)
    | (ts, .panic) => (ts, .panic)
    | ((t1, t2), .ok ()) =>
      let (t2, o) := t2.sort srt lower []
      ((t1, t2), o.bind fun _ => .ok .argument)
  else if t2.rowCount = 0 then
    -- `sortMerged(table1)`
    let r := if t1.sortKeys.length = 0 then setSortKeysBetween t1 t2 else ((t1, t2), .ok ())
    match r with
    | (ts, .err e) => (ts, .err e)
    | (ts, .panic) => (ts, .panic)
    | ((t1, t2), .ok ()) =>
      let (t1, o) := t1.sort srt lower []
      ((t1, t2), o.bind fun _ => .ok .receiver)
  else
    match setSortKeysBetween t1 t2 with
    | (ts, .err e) => (ts, .err e)
    | (ts, .panic) => (ts, .panic)
    | ((t1, t2), .ok ()) =>
      ((t1, t2), (mergeCollect nt t1 t2).bind fun m => (mergeCombine nt srt lower m).bind fun m => (mergeClean srt lower t1 m).bind fun m =>
        .ok (.fresh m))

/-- `SortUnique` (sort.go:1260-1292): the receiver afterwards, and the result.  The table is merged with itself, so receiver and argument of
`Merge` are one table here: after `setSortKeysBetweenTables`, which reads all keys before it sets any (sort.go:807-829), `Merge` only reads
them.  A table without rows is sorted and returned itself. -/
def sortUnique (nt : Nat → Nat → τ) (srt : GoSort (List (Cell τ))) (lower : GoStr → GoStr) (t : Table τ) (sortCols : List GoStr) :
    Table τ × Out (MergeResult τ) :=
  let r := if sortCols.length > 0 then t.setSortKeys sortCols else (t, .ok ())
  match r with
  | (t, .err e) => (t, .err e)
  | (t, .panic) => (t, .panic)
  | (t, .ok ()) =>
    if t.sortKeys.length = 0 then (t, .err .noSortKeys)
    else if t.rowCount = 0 then
      match t.sort srt lower [] with
      | (t, .err e) => (t, .err e)
      | (t, .panic) => (t, .panic)
      | (t, .ok ()) =>
        let (t, o) := t.setName t.name
        (t, o.bind fun _ => .ok .receiver)
    else
      match t.setSortKeysFromTable t with
      | (t, .err e) => (t, .err e)
      | (t, .panic) => (t, .panic)
      | (t, .ok ()) =>
        (t, (mergeCollect nt t t).bind fun m => (mergeCombine nt srt lower m).bind fun m => (mergeClean srt lower t m).bind fun m =>
          (orDrop (m.setName t.name)).bind fun m => .ok (.fresh m))

end Table
end Verif
