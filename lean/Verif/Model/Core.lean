import Verif.Model.Types

/-!
# Tables: construction, columns, rows, cells

Methods on `*Table`.  A mutator returns the table after the call together with the outcome, so the
state left behind by a failing call is visible.  The checks guarded by `debugging` and `printCaller`
(both constant `false`, gotables.go:55-56) are left out.  `nil` receivers are not modelled.
-/

namespace Verif

variable {τ : Type}

/-- `NewNilTable` (gotables.go:555-566). -/
def newNilTable : Table τ :=
  { name := [], colNames := [], colTypes := [], colMap := [], rows := [], sortKeys := [],
    isStructShape := false, isNilTable := true, parent := none }

namespace Table

/-- `ColCount` (gotables.go:2245-2255). -/
def colCount (t : Table τ) : Nat := t.colNames.length

/-- `RowCount` (gotables.go:2261-2268). -/
def rowCount (t : Table τ) : Nat := t.rows.length

/-- `SetName` (gotables.go:2547-2563); `RenameTable` on a table is the same (gotables.go:2590-2595). -/
def setName (t : Table τ) (tableName : GoStr) : Table τ × Out Unit :=
  if isValidTableName tableName = false then (t, .err .badTableName)
  else ({ t with name := tableName, isNilTable := false }, .ok ())

/-- `NewTable` (gotables.go:577-588). -/
def newTable (tableName : GoStr) : Out (Table τ) :=
  match (newNilTable : Table τ).setName tableName with
  | (t, .ok ()) => .ok t
  | (_, .err e) => .err e
  | (_, .panic) => .panic

/-- `ColIndex` (gotables.go:2200-2212). -/
def colIndex (t : Table τ) (colName : GoStr) : Out Nat :=
  match t.colMap.get? colName with
  | some i => .ok i
  | none => .err .noCol

/-- `ColType` (gotables.go:2171-2183). -/
def colType (t : Table τ) (colName : GoStr) : Out ColType :=
  match t.colMap.get? colName with
  | none => .err .noCol
  | some i =>
    match t.colTypes[i]? with
    | some ty => .ok ty
    | none => .panic

/-- `ColTypeByColIndex` (gotables.go:2185-2198). -/
def colTypeByColIndex (t : Table τ) (colIndex : Int) : Out ColType :=
  if colIndex < 0 ∨ colIndex > (t.colTypes.length : Int) - 1 then .err .noCol
  else
    match goGet? t.colTypes colIndex with
    | some ty => .ok ty
    | none => .panic

/-- `ColName` (gotables.go:2683-2693), `ColNameByColIndex` (gotables.go:2699-2701). -/
def colName (t : Table τ) (colIndex : Int) : Out GoStr :=
  if colIndex < 0 ∨ colIndex > (t.colCount : Int) - 1 then .err .noCol
  else
    match goGet? t.colNames colIndex with
    | some n => .ok n
    | none => .panic

/-- `getColInfo` (gotables.go:2056-2071): name and type of a column, looked up by name. -/
def getColInfo (t : Table τ) (colName : GoStr) : Out (GoStr × ColType) :=
  match t.colMap.get? colName with
  | none => .err .noCol
  | some i =>
    match t.colTypes[i]? with
    | some ty => .ok (colName, ty)
    | none => .panic

/-- `HasCol` (gotables.go:2025-2037): `err` stands for `(false, err)`. -/
def hasCol (t : Table τ) (colName : GoStr) : Out Unit :=
  (t.getColInfo colName).bind fun _ => .ok ()

/-- `HasColByColIndex` (gotables.go:2040-2054). -/
def hasColByColIndex (t : Table τ) (colIndex : Int) : Out Unit :=
  if colIndex < 0 ∨ colIndex > (t.colCount : Int) - 1 then .err .noCol else .ok ()

/-- `HasRow` (gotables.go:2469-2486). -/
def hasRow (t : Table τ) (rowIndex : Int) : Out Unit :=
  if rowIndex < 0 ∨ rowIndex > (t.rows.length : Int) - 1 then .err .noRow else .ok ()

/-- `HasCell` (gotables.go:2387-2407). -/
def hasCell (t : Table τ) (colName : GoStr) (rowIndex : Int) : Out Unit :=
  (t.hasCol colName).bind fun _ => t.hasRow rowIndex

/-- `IsColType` (gotables.go:2488-2503). -/
def isColType (t : Table τ) (colName typeName : GoStr) : Out Bool :=
  (t.colType colName).bind fun ty => .ok (ty.name = typeName)

/-- The assignment `table.rows[rowIndex][colIndex] = val`; `none` is an index panic. -/
def setCell? (t : Table τ) (colIndex rowIndex : Int) (val : Cell τ) : Option (Table τ) :=
  match goGet? t.rows rowIndex with
  | none => none
  | some row =>
    match goSet? row colIndex val with
    | none => none
    | some row' =>
      match goSet? t.rows rowIndex row' with
      | none => none
      | some rows' => some { t with rows := rows' }

/-- The expression `table.rows[rowIndex][colIndex]`; `none` is an index panic. -/
def getCell? (t : Table τ) (colIndex rowIndex : Int) : Option (Cell τ) :=
  match goGet? t.rows rowIndex with
  | none => none
  | some row => goGet? row colIndex

/-- The zero value of each column type (helpers.go:4781-4848).  `nt` is the fresh nil table stored in a `*Table` cell. -/
def zeroCell (nt : τ) : ColType → Cell τ
  | .byteSlice => .bytes (some [])
  | .uint8Slice => .bytes (some [])
  | .bool => .bool false
  | .byte => .int .uint8 0
  | .float32 => .f32 0
  | .float64 => .f64 0
  | .int => .int .int 0
  | .int16 => .int .int16 0
  | .int32 => .int .int32 0
  | .rune => .int .int32 0
  | .int64 => .int .int64 0
  | .int8 => .int .int8 0
  | .string => .str []
  | .uint => .int .uint 0
  | .uint16 => .int .uint16 0
  | .uint32 => .int .uint32 0
  | .uint64 => .int .uint64 0
  | .uint8 => .int .uint8 0
  | .table => .tbl (some nt)
  | .time => .time minTime

/-- `SetCellToZeroValueByColIndex` (helpers.go:4850-4926).  Neither index is checked: both panic when out of range. -/
def setCellToZeroValueByColIndex (nt : τ) (t : Table τ) (colIndex rowIndex : Int) : Table τ × Out Unit :=
  match goGet? t.colTypes colIndex with
  | none => (t, .panic)
  | some ty =>
    match t.setCell? colIndex rowIndex (zeroCell nt ty) with
    | none => (t, .panic)
    | some t' => (t', .ok ())

/-- `SetCellToZeroValue` (gotables.go:945-963). -/
def setCellToZeroValue (nt : τ) (t : Table τ) (colName : GoStr) (rowIndex : Int) : Table τ × Out Unit :=
  match t.colIndex colName with
  | .ok ci => t.setCellToZeroValueByColIndex nt ci rowIndex
  | .err e => (t, .err e)
  | .panic => (t, .panic)

/-- `SetRowCellsToZeroValue` (helpers.go:4928-5011).
`nt ci ri` is the fresh nil table created for the `*Table` cell at column `ci`, row `ri`. -/
def setRowCellsToZeroValue (nt : Nat → Nat → τ) (t : Table τ) (rowIndex : Int) : Table τ × Out Unit :=
  if t.isNilTable then (t, .err .nilTable)
  else
    forEach (fun (ci : Nat) (t : Table τ) =>
      match t.colTypes[ci]? with
      | none => (t, .panic)
      | some ty =>
        match t.setCell? ci rowIndex (zeroCell (nt ci rowIndex.toNat) ty) with
        | none => (t, .panic)
        | some t' => (t', .ok ()))
      (List.range t.colCount) t

/-- `AppendRow` (gotables.go:721-768). -/
def appendRow (nt : Nat → Nat → τ) (t : Table τ) : Table τ × Out Unit :=
  if t.isNilTable then (t, .err .nilTable)
  else
    let newRow : List (Cell τ) := List.replicate t.colNames.length Cell.nil
    let t1 := { t with rows := t.rows ++ [newRow] }
    setRowCellsToZeroValue nt t1 ((t1.rows.length : Int) - 1)

/-- `AppendRows` (gotables.go:670-708). -/
def appendRows (nt : Nat → Nat → τ) (t : Table τ) (howMany : Int) : Table τ × Out Unit :=
  if t.isNilTable then (t, .err .nilTable)
  else if howMany < 0 then (t, .err .negCount)
  else forEach (fun (_ : Nat) (t : Table τ) => t.appendRow nt) (List.range howMany.toNat) t

/-- `SetColCellsToZeroValueByColIndex` (gotables.go:838-855). -/
def setColCellsToZeroValueByColIndex (nt : Nat → Nat → τ) (t : Table τ) (colIndex : Int) : Table τ × Out Unit :=
  forEach (fun (ri : Nat) (t : Table τ) => t.setCellToZeroValueByColIndex (nt colIndex.toNat ri) colIndex ri)
    (List.range t.rowCount) t

/-- `SetColCellsToZeroValue` (gotables.go:823-835). -/
def setColCellsToZeroValue (nt : Nat → Nat → τ) (t : Table τ) (colName : GoStr) : Table τ × Out Unit :=
  match t.colIndex colName with
  | .ok ci => t.setColCellsToZeroValueByColIndex nt ci
  | .err e => (t, .err e)
  | .panic => (t, .panic)

/-- `AppendCol` (gotables.go:1795-1837). -/
def appendCol (nt : Nat → Nat → τ) (t : Table τ) (colName colType : GoStr) : Table τ × Out Unit :=
  if t.isNilTable then (t, .err .nilTable)
  else if isValidColName colName = false then (t, .err .badColName)
  else
    match ColType.ofName? colType with
    | none => (t, .err .badColType)
    | some ty =>
      match t.colMap.get? colName with
      | some _ => (t, .err .dupCol)
      | none =>
        let names := t.colNames ++ [colName]
        let t1 := { t with
          colNames := names
          colTypes := t.colTypes ++ [ty]
          colMap := t.colMap.insert colName (names.length - 1)
          rows := t.rows.map (fun row => row ++ [Cell.nil]) }
        t1.setColCellsToZeroValue nt colName

/-- `appendCols` (gotables.go:2001-2017). -/
def appendCols (nt : Nat → Nat → τ) (t : Table τ) (colNames colTypes : List GoStr) : Table τ × Out Unit :=
  if colNames.length ≠ colTypes.length then (t, .err .other)
  else forEach (fun (p : GoStr × GoStr) (t : Table τ) => t.appendCol nt p.1 p.2) (colNames.zip colTypes) t

/-- `NewTableFromMetadata` (gotables.go:620-647). -/
def newTableFromMetadata (nt : Nat → Nat → τ) (tableName : GoStr) (colNames colTypes : List GoStr) : Out (Table τ) :=
  if colNames.length ≠ colTypes.length then .err .other
  else
    (newTable tableName).bind fun t =>
      match t.appendCols nt colNames colTypes with
      | (t', .ok ()) => .ok t'
      | (_, .err e) => .err e
      | (_, .panic) => .panic

/-- `DeleteRows` (gotables.go:1056-1120). -/
def deleteRows (t : Table τ) (firstRowIndex lastRowIndex : Int) : Table τ × Out Unit :=
  if firstRowIndex < 0 ∨ firstRowIndex > (t.rowCount : Int) - 1 then (t, .err .noRow)
  else if lastRowIndex < 0 ∨ lastRowIndex > (t.rowCount : Int) - 1 then (t, .err .noRow)
  else if firstRowIndex > lastRowIndex then (t, .err .badRange)
  else
    ({ t with rows := t.rows.take firstRowIndex.toNat ++ t.rows.drop (lastRowIndex + 1).toNat }, .ok ())

/-- `DeleteRow` (gotables.go:987-1021).  Note `return nil` when the inner call fails. -/
def deleteRow (t : Table τ) (rowIndex : Int) : Table τ × Out Unit :=
  if rowIndex < 0 ∨ rowIndex > (t.rowCount : Int) - 1 then (t, .err .noRow)
  else
    match t.deleteRows rowIndex rowIndex with
    | (t', .err _) => (t', .ok ())
    | r => r

/-- `DeleteRowsAll` (gotables.go:1024-1053). -/
def deleteRowsAll (t : Table τ) : Table τ × Out Unit :=
  if (t.rowCount : Int) > 0 then t.deleteRows 0 ((t.rowCount : Int) - 1)
  else (t, .ok ())

/-- `for i := range colNames { colNamesMap[colNames[i]] = i }` (gotables.go:1863-1865). -/
def reindexFrom (names : List GoStr) (i : Nat) (m : GoMap) : GoMap :=
  match names with
  | [] => m
  | n :: ns => reindexFrom ns (i + 1) (m.insert n i)

/-- `append(l[:i], l[i+1:]...)`; `none` is the panic when `i + 1` exceeds the length. -/
def removeAt? {α : Type} (l : List α) (i : Nat) : Option (List α) :=
  if i + 1 ≤ l.length then some (l.take i ++ l.drop (i + 1)) else none

/-- The loop of `DeleteColByColIndex` over the rows (gotables.go:1870-1877). -/
def removeFromRows {α : Type} (i : Nat) : List (List α) → List (List α) × Out Unit
  | [] => ([], .ok ())
  | row :: rows =>
    match removeAt? row i with
    | none => (row :: rows, .panic)
    | some row' =>
      let (rest, o) := removeFromRows i rows
      (row' :: rest, o)

/-- `DeleteColByColIndex` (gotables.go:1839-1879).  Sort keys are not touched. -/
def deleteColByColIndex (t : Table τ) (colIndex : Int) : Table τ × Out Unit :=
  if colIndex < 0 ∨ colIndex > (t.colCount : Int) - 1 then (t, .err .noCol)
  else
    match t.colName colIndex with
    | .err e => (t, .err e)
    | .panic => (t, .panic)
    | .ok name =>
      let ci := colIndex.toNat
      match removeAt? t.colNames ci with
      | none => (t, .panic)
      | some names =>
        let t1 := { t with colNames := names, colMap := reindexFrom names 0 (t.colMap.erase name) }
        match removeAt? t1.colTypes ci with
        | none => (t1, .panic)
        | some types =>
          let t2 := { t1 with colTypes := types }
          let (rows, o) := removeFromRows ci t2.rows
          ({ t2 with rows := rows }, o)

/-- `DeleteCol` (gotables.go:1881-1892). -/
def deleteCol (t : Table τ) (colName : GoStr) : Table τ × Out Unit :=
  match t.colIndex colName with
  | .ok ci => t.deleteColByColIndex ci
  | .err e => (t, .err e)
  | .panic => (t, .panic)

/-- `SetValByColIndex` (gotables.go:1933-1996). -/
def setValByColIndex (t : Table τ) (colIndex rowIndex : Int) (val : Cell τ) : Table τ × Out Unit :=
  match val.dynType with
  | none => (t, .err .nilVal)
  | some valType =>
    match val with
    | .tbl none => (t, .err .nilVal)
    | _ =>
      match t.hasRow rowIndex with
      | .err e => (t, .err e)
      | .panic => (t, .panic)
      | .ok () =>
        match t.colTypeByColIndex colIndex with
        | .err e => (t, .err e)
        | .panic => (t, .panic)
        | .ok colType =>
          if valType ≠ colType ∧ isAlias colType valType = false then (t, .err .typeMismatch)
          else
            match t.setCell? colIndex rowIndex val with
            | none => (t, .panic)
            | some t' => (t', .ok ())

/-- `SetVal` (gotables.go:1895-1930). -/
def setVal (t : Table τ) (colName : GoStr) (rowIndex : Int) (val : Cell τ) : Table τ × Out Unit :=
  match val with
  | .tbl none => (t, .err .nilVal)
  | .nil => (t, .err .nilVal)
  | _ =>
    match t.colIndex colName with
    | .err e => (t, .err e)
    | .panic => (t, .panic)
    | .ok ci => t.setValByColIndex ci rowIndex val

/-- `GetValByColIndex` (gotables.go:2354-2384). -/
def getValByColIndex (t : Table τ) (colIndex rowIndex : Int) : Out (Cell τ) :=
  if t.isNilTable then .err .nilTable
  else
    (t.hasRow rowIndex).bind fun _ =>
      (t.hasColByColIndex colIndex).bind fun _ =>
        match t.getCell? colIndex rowIndex with
        | some c => .ok c
        | none => .panic

/-- `GetVal` (gotables.go:2289-2329). -/
def getVal (t : Table τ) (colName : GoStr) (rowIndex : Int) : Out (Cell τ) :=
  if t.isNilTable then .err .nilTable
  else (t.colIndex colName).bind fun ci => t.getValByColIndex ci rowIndex

/-- A Go type assertion `val.(T)` for the Go type `T` behind the column type `valType` (single-value form: panics on mismatch). -/
def typeAssert (valType : ColType) (c : Cell τ) : Out (Cell τ) :=
  match c.dynType with
  | none => .panic
  | some d => if d = valType ∨ isAlias valType d then .ok c else .panic

/-- The nil check at the start of `SetByteSlice`, `SetUint8Slice`, `SetTable` and their `ByColIndex` forms
(helpers.go:79-83, 866-870, 967-971). -/
def typedSetterRejects (c : Cell τ) : Bool :=
  match c with
  | .bytes none => true
  | .tbl none => true
  | _ => false

/-- `Set<type>(colName, rowIndex, newVal)` for the Go type named `valType` (helpers.go:66-947, one copy per type).
The static type of `newVal` makes `val` a value of that type.  `SetTable` also sets `newVal.parentTable`; that is part of the heap model. -/
def setTyped (valType : ColType) (t : Table τ) (colName : GoStr) (rowIndex : Int) (val : Cell τ) : Table τ × Out Unit :=
  if typedSetterRejects val then (t, .err .nilVal)
  else
    match t.colType colName with
    | .err e => (t, .err e)
    | .panic => (t, .panic)
    | .ok colType =>
      if valType ≠ colType ∧ isAlias colType valType = false then (t, .err .typeMismatch)
      else
        match t.colIndex colName with
        | .err e => (t, .err e)
        | .panic => (t, .panic)
        | .ok ci =>
          match t.hasRow rowIndex with
          | .err e => (t, .err e)
          | .panic => (t, .panic)
          | .ok () =>
            match t.setCell? ci rowIndex val with
            | none => (t, .panic)
            | some t' => (t', .ok ())

/-- `Set<type>ByColIndex(colIndex, rowIndex, newVal)` (helpers.go:954-1673).  `table.colTypes[colIndex]` is not checked. -/
def setTypedByColIndex (valType : ColType) (t : Table τ) (colIndex rowIndex : Int) (val : Cell τ) : Table τ × Out Unit :=
  if typedSetterRejects val then (t, .err .nilVal)
  else
    match goGet? t.colTypes colIndex with
    | none => (t, .panic)
    | some colType =>
      if valType ≠ colType ∧ isAlias colType valType = false then (t, .err .typeMismatch)
      else
        match t.hasRow rowIndex with
        | .err e => (t, .err e)
        | .panic => (t, .panic)
        | .ok () =>
          match t.setCell? colIndex rowIndex val with
          | none => (t, .panic)
          | some t' => (t', .ok ())

/-- `Get<type>(colName, rowIndex)` for the Go type named `valType` (helpers.go:1681-2500, one copy per type). -/
def getTyped (valType : ColType) (t : Table τ) (colName : GoStr) (rowIndex : Int) : Out (Cell τ) :=
  (t.colType colName).bind fun colType =>
    if valType ≠ colType ∧ isAlias colType valType = false then .err .typeMismatch
    else
      (t.colIndex colName).bind fun ci =>
        (t.hasRow rowIndex).bind fun _ =>
          match t.getCell? ci rowIndex with
          | none => .panic
          | some c => typeAssert valType c

/-- `Get<type>ByColIndex(colIndex, rowIndex)` (helpers.go:3567-4300, one copy per type). -/
def getTypedByColIndex (valType : ColType) (t : Table τ) (colIndex rowIndex : Int) : Out (Cell τ) :=
  (t.colTypeByColIndex colIndex).bind fun colType =>
    if valType ≠ colType ∧ isAlias colType valType = false then .err .typeMismatch
    else
      (t.hasRow rowIndex).bind fun _ =>
        match t.getCell? colIndex rowIndex with
        | none => .panic
        | some c => typeAssert valType c

/-- `Get<type>MustGet` and `Get<type>ByColIndexMustGet` (helpers.go:2505-2885, 4311-4690): an error becomes a panic. -/
def mustGet {α : Type} (r : Out α) : Out α :=
  match r with
  | .ok a => .ok a
  | .err _ => .panic
  | .panic => .panic

/-- `RenameCol` (gotables.go:2624-2659).  Sort keys are not touched. -/
def renameCol (t : Table τ) (oldName newName : GoStr) : Table τ × Out Unit :=
  match t.hasCol oldName with
  | .err e => (t, .err e)
  | .panic => (t, .panic)
  | .ok () =>
    match t.hasCol newName with
    | .ok () => (t, .err .dupCol)
    | .panic => (t, .panic)
    | .err _ =>
      if isValidColName newName = false then (t, .err .badColName)
      else
        match t.colIndex oldName with
        | .err e => (t, .err e)
        | .panic => (t, .panic)
        | .ok ci =>
          match goSet? t.colNames ci newName with
          | none => (t, .panic)
          | some names =>
            ({ t with colNames := names, colMap := (t.colMap.erase oldName).insert newName ci }, .ok ())

/-- `RenameColByColIndex` (gotables.go:2661-2677). -/
def renameColByColIndex (t : Table τ) (colIndex : Int) (newName : GoStr) : Table τ × Out Unit :=
  match t.colName colIndex with
  | .ok oldName => t.renameCol oldName newName
  | .err e => (t, .err e)
  | .panic => (t, .panic)

/-- `SetStructShape` (gotables.go:3056-3064). -/
def setStructShape (t : Table τ) (b : Bool) : Table τ × Out Unit :=
  ({ t with isStructShape := b }, .ok ())

/-- `float32(math.NaN())` and `math.NaN()`. -/
def nan32 : BitVec 32 := 0x7fc00000#32
def nan64 : BitVec 64 := 0x7ff8000000000001#64

/-- `SetFloatCellToNaNByColIndex` (gotables.go:912-943). -/
def setFloatCellToNaNByColIndex (t : Table τ) (colIndex rowIndex : Int) : Table τ × Out Unit :=
  match t.colTypeByColIndex colIndex with
  | .err e => (t, .err e)
  | .panic => (t, .panic)
  | .ok .float32 => t.setTypedByColIndex .float32 colIndex rowIndex (.f32 nan32)
  | .ok .float64 => t.setTypedByColIndex .float64 colIndex rowIndex (.f64 nan64)
  | .ok _ =>
    match t.colName colIndex with
    | .panic => (t, .panic)
    | _ => (t, .err .notFloat)

/-- `SetFloatCellToNaN` (gotables.go:897-910). -/
def setFloatCellToNaN (t : Table τ) (colName : GoStr) (rowIndex : Int) : Table τ × Out Unit :=
  match t.colIndex colName with
  | .ok ci => t.setFloatCellToNaNByColIndex ci rowIndex
  | .err e => (t, .err e)
  | .panic => (t, .panic)

/-- `SetColFloatCellsToNaNByColIndex` (gotables.go:877-895). -/
def setColFloatCellsToNaNByColIndex (t : Table τ) (colIndex : Int) : Table τ × Out Unit :=
  forEach (fun (ri : Nat) (t : Table τ) => t.setFloatCellToNaNByColIndex colIndex ri) (List.range t.rowCount) t

/-- `SetColFloatCellsToNaN` (gotables.go:858-874). -/
def setColFloatCellsToNaN (t : Table τ) (colName : GoStr) : Table τ × Out Unit :=
  match t.colIndex colName with
  | .ok ci => t.setColFloatCellsToNaNByColIndex ci
  | .err e => (t, .err e)
  | .panic => (t, .panic)

/-- `SetRowFloatCellsToNaN` (gotables.go:771-794). -/
def setRowFloatCellsToNaN (t : Table τ) (rowIndex : Int) : Table τ × Out Unit :=
  forEach (fun (ci : Nat) (t : Table τ) =>
    match t.colTypeByColIndex ci with
    | .err e => (t, .err e)
    | .panic => (t, .panic)
    | .ok .float32 => t.setTypedByColIndex .float32 ci rowIndex (.f32 nan32)
    | .ok .float64 => t.setTypedByColIndex .float64 ci rowIndex (.f64 nan64)
    | .ok _ => (t, .ok ())) (List.range t.colCount) t

/-- `SetAllFloatCellsToNaN` (gotables.go:797-820). -/
def setAllFloatCellsToNaN (t : Table τ) : Table τ × Out Unit :=
  forEach (fun (ci : Nat) (t : Table τ) =>
    match t.colTypeByColIndex ci with
    | .err e => (t, .err e)
    | .panic => (t, .panic)
    | .ok .float32 => t.setColFloatCellsToNaNByColIndex ci
    | .ok .float64 => t.setColFloatCellsToNaNByColIndex ci
    | .ok _ => (t, .ok ())) (List.range t.colCount) t

end Table
end Verif
