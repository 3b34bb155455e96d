import Verif.Model.Core
import Verif.Model.Sort

/-!
# Building tables from other tables

The source table is passed by value: the calls are modelled for a source that is a different table from the receiver.
-/

namespace Verif

variable {τ : Type}

namespace Table

/-- The loop of `GetColInfoAsSlices` (gotables.go:2153-2166); `GetColInfoAsTable` (gotables.go:2073-2131) reads the same names and types
in the same order and fails in the same cases. -/
def colInfoLoop (t : Table τ) : List Nat → Out (List (GoStr × ColType))
  | [] => .ok []
  | ci :: cis =>
    (t.colName ci).bind fun n =>
      (t.getColInfo n).bind fun info =>
        (colInfoLoop t cis).bind fun rest => .ok ((n, info.2) :: rest)

/-- `GetColInfoAsSlices` (gotables.go:2141-2169). -/
def colInfo (t : Table τ) : Out (List (GoStr × ColType)) :=
  if t.isNilTable then .err .nilTable else t.colInfoLoop (List.range t.colCount)

/-- One step of `AppendColsFromTable` (gotables.go:3465-3494). -/
def appendColFrom (nt : Nat → Nat → τ) (info : GoStr × ColType) (t : Table τ) : Table τ × Out Unit :=
  match t.appendCol nt info.1 info.2.name with
  | (t', .ok ()) => (t', .ok ())
  | (t', .panic) => (t', .panic)
  | (t', .err e) =>
    match t'.hasCol info.1 with
    | .ok () =>
      match t'.getColInfo info.1 with
      | .err e => (t', .err e)
      | .panic => (t', .panic)
      | .ok (_, ty) => if info.2 ≠ ty then (t', .err .typeMismatch) else (t', .ok ())
    | .err _ => (t', .err e)
    | .panic => (t', .panic)

/-- `AppendColsFromTable` (gotables.go:3444-3497). -/
def appendColsFromTable (nt : Nat → Nat → τ) (t fromTable : Table τ) : Table τ × Out Unit :=
  if t.isNilTable then (t, .err .nilTable)
  else
    match fromTable.colInfo with
    | .err e => (t, .err e)
    | .panic => (t, .panic)
    | .ok infos => forEach (appendColFrom nt) infos t

/-- The column loop of `AppendRowsFromTable` (gotables.go:3542-3574): copy one cell by column name. -/
def copyCellStep (fromTable : Table τ) (fromRow toRow : Int) (fromCol : Nat) (t : Table τ) : Table τ × Out Unit :=
  match fromTable.colName fromCol with
  | .err e => (t, .err e)
  | .panic => (t, .panic)
  | .ok n =>
    match fromTable.getValByColIndex fromCol fromRow with
    | .err e => (t, .err e)
    | .panic => (t, .panic)
    | .ok c => t.setVal n toRow c

/-- One iteration of the row loop of `AppendRowsFromTable` (gotables.go:3535-3576). -/
def copyRowStep (nt : Nat → Nat → τ) (fromTable : Table τ) (fromRow toRow : Int) (t : Table τ) : Table τ × Out Unit :=
  match t.appendRow nt with
  | (t1, .ok ()) => forEach (copyCellStep fromTable fromRow toRow) (List.range fromTable.colCount) t1
  | r => r

/-- `AppendRowsFromTable` (gotables.go:3499-3592).  There is no check of the range up front; `first > last` does nothing. -/
def appendRowsFromTable (nt : Nat → Nat → τ) (t fromTable : Table τ) (firstRow lastRow : Int) : Table τ × Out Unit :=
  if t.isNilTable then (t, .err .nilTable)
  else if fromTable.isNilTable then (t, .err .nilTable)
  else
    let toRow0 : Int := t.rowCount
    forEach (fun (k : Nat) (t : Table τ) => copyRowStep nt fromTable (firstRow + k) (toRow0 + k) t)
      (List.range (lastRow - firstRow + 1).toNat) t

/-- `NewTableFromRows` (gotables.go:3598-3618). -/
def newTableFromRows (nt : Nat → Nat → τ) (t : Table τ) (newTableName : GoStr) (firstRow lastRow : Int) : Out (Table τ) :=
  (newTable newTableName).bind fun t0 =>
    match t0.appendColsFromTable nt t with
    | (_, .err e) => .err e
    | (_, .panic) => .panic
    | (t1, .ok ()) =>
      match t1.appendRowsFromTable nt t firstRow lastRow with
      | (_, .err e) => .err e
      | (_, .panic) => .panic
      | (t2, .ok ()) => .ok t2

/-- `NewTableFromRowsBySearchRange` (gotables.go:3755-3770). -/
def newTableFromRowsBySearchRange (lower : GoStr → GoStr) (nt : Nat → Nat → τ) (t : Table τ) (newTableName : GoStr)
    (searchValues : List (Cell τ)) : Out (Table τ) :=
  (t.searchRange lower searchValues).bind fun (firstRow, lastRow) => t.newTableFromRows nt newTableName firstRow lastRow

/-- The part of `CopyCols` (gotables.go:3625-3659) after the circular reference check. -/
def copyColsBody (nt : Nat → Nat → τ) (t : Table τ) : Out (Table τ) :=
  (newTable t.name).bind fun t0 =>
    match t0.appendColsFromTable nt t with
    | (_, .err e) => .err e
    | (_, .panic) => .panic
    | (t1, .ok ()) => .ok t1

/-- The part of `Copy` (gotables.go:3666-3712) after the circular reference check. -/
def copyBody (nt : Nat → Nat → τ) (t : Table τ) : Out (Table τ) :=
  (t.copyColsBody nt).bind fun t1 =>
    if t.rowCount > 0 then
      match t1.appendRowsFromTable nt t 0 ((t.rowCount : Int) - 1) with
      | (_, .err e) => .err e
      | (_, .panic) => .panic
      | (t2, .ok ()) => .ok t2
    else .ok t1

end Table
end Verif
