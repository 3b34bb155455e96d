import Verif.Model.Csv

/-!
# Columns as texts, and questions about columns and cells
-/

namespace Verif
namespace Table
variable {τ : Type}

/-- `GetValAsString` (gotables.go:3023-3044). -/
def getValAsString (P : PrintEnv) (H : Heap) (t : Table Addr) (colName : GoStr) (rowIndex : Int) : Out GoStr :=
  if t.isNilTable then .err .nilTable
  else (t.colIndex colName).bind fun ci => t.getValAsStringByColIndex P H ci rowIndex

/-- The loop of `GetColValsAsStrings` (gotables.go:3108-3114) from row `rowIndex` on, for `n` rows. -/
def colValsLoop (P : PrintEnv) (H : Heap) (t : Table Addr) (colName : GoStr) : List Nat → Out (List GoStr)
  | [] => .ok []
  | rowIndex :: rest =>
    (t.getValAsString P H colName rowIndex).bind fun s => (colValsLoop P H t colName rest).bind fun ss => .ok (s :: ss)

/-- `GetColValsAsStrings` (gotables.go:3097-3117). -/
def getColValsAsStrings (P : PrintEnv) (H : Heap) (t : Table Addr) (colName : GoStr) : Out (List GoStr) :=
  if t.isNilTable then .err .nilTable else t.colValsLoop P H colName (List.range t.rowCount)

/-- `JoinColVals` (gotables.go:3067-3080). -/
def joinColVals (P : PrintEnv) (H : Heap) (t : Table Addr) (colName separator : GoStr) : Out GoStr :=
  (t.getColValsAsStrings P H colName).bind fun sVals => .ok (joinSep separator sVals)

/-- `JoinColValsByColIndex` (gotables.go:3083-3094). -/
def joinColValsByColIndex (P : PrintEnv) (H : Heap) (t : Table Addr) (colIndex : Int) (separator : GoStr) : Out GoStr :=
  (t.colName colIndex).bind fun n => t.joinColVals P H n separator

/-- `HasCellByColIndex` (gotables.go:2410-2467). -/
def hasCellByColIndex (t : Table τ) (colIndex rowIndex : Int) : Out Unit :=
  (t.hasColByColIndex colIndex).bind fun _ =>
    (t.hasRow rowIndex).bind fun _ =>
      if (t.rows.length : Int) < rowIndex + 1 then .err .noRow
      else
        match goGet? t.rows rowIndex with
        | none => .panic
        | some row =>
          if row.length ≠ t.colCount then .err .other
          else if (row.length : Int) < colIndex + 1 then .err .noCol
          else .ok ()

/-- `IsColTypeByColIndex` (gotables.go:2505-2522). -/
def isColTypeByColIndex (t : Table τ) (colIndex : Int) (typeName : GoStr) : Out Bool :=
  (t.hasColByColIndex colIndex).bind fun _ =>
    match goGet? t.colNames colIndex with
    | none => .panic
    | some n => t.isColType n typeName

/-- `IsTableColByColIndex` (gotables.go:4452-4465), `IsTableColType` (parser.go:792-799). -/
def isTableColByColIndex (t : Table τ) (colIndex : Int) : Out Bool :=
  (t.colTypeByColIndex colIndex).bind fun ty => .ok (ty.name = gs! "*Table")

/-- `IsTableCol` (gotables.go:4467-4483). -/
def isTableCol (t : Table τ) (colName : GoStr) : Out Bool :=
  (t.colIndex colName).bind fun ci => t.isTableColByColIndex ci

/-- `GetValMustGet` (gotables.go:2274-2286). -/
def getValMustGet (t : Table τ) (colName : GoStr) (rowIndex : Int) : Out (Cell τ) :=
  if t.isNilTable then .panic else mustGet (t.getVal colName rowIndex)

/-- `GetValByColIndexMustGet` (gotables.go:2335-2351). -/
def getValByColIndexMustGet (t : Table τ) (colIndex rowIndex : Int) : Out (Cell τ) :=
  if t.isNilTable then .panic else mustGet (t.getValByColIndex colIndex rowIndex)

/-- `Set<type>MustSet` (helpers.go:2885-3220, one copy per type): an error becomes a panic. -/
def setTypedMustSet (valType : ColType) (t : Table τ) (colName : GoStr) (rowIndex : Int) (val : Cell τ) : Table τ × Out Unit :=
  match t.setTyped valType colName rowIndex val with
  | (t', .ok ()) => (t', .ok ())
  | (t', .err _) => (t', .panic)
  | (t', .panic) => (t', .panic)

/-- `Set<type>ByColIndexMustSet` (helpers.go:3225-3558, one copy per type): an error becomes a panic. -/
def setTypedByColIndexMustSet (valType : ColType) (t : Table τ) (colIndex rowIndex : Int) (val : Cell τ) : Table τ × Out Unit :=
  match t.setTypedByColIndex valType colIndex rowIndex val with
  | (t', .ok ()) => (t', .ok ())
  | (t', .err _) => (t', .panic)
  | (t', .panic) => (t', .panic)

/-- `CellInfo` (gotables.go:532-538) without the reference to the table, which is the one asked. -/
structure CellInfo where
  colName : GoStr
  colType : ColType
  colIndex : Int
  rowIndex : Int
  deriving DecidableEq

/-- `GetCellInfoByColIndex` (tree.go:216-233).  `table.colTypes[colIndex]` is not checked, and the row is not looked at. -/
def getCellInfoByColIndex (t : Table τ) (colIndex rowIndex : Int) : Out CellInfo :=
  match goGet? t.colTypes colIndex with
  | none => .panic
  | some colType => (t.colName colIndex).bind fun colName => .ok ⟨colName, colType, colIndex, rowIndex⟩

/-- `GetCellInfo` (tree.go:257-275). -/
def getCellInfo (t : Table τ) (colName : GoStr) (rowIndex : Int) : Out CellInfo :=
  (t.colIndex colName).bind fun colIndex => t.getCellInfoByColIndex colIndex rowIndex

end Table
end Verif
