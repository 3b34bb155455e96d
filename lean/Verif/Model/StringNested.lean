import Verif.Model.Printer
import Verif.Model.Columns

/-!
# The text of a table and all tables in it
-/

namespace Verif

/-- The end of the name that a nested table gets (gotables.go:4565). -/
def nestedTail (parentTableName colName : GoStr) (rowIndex : Nat) (parentTailName : GoStr) : GoStr :=
  gs! "__FROM_TABLE_" ++ parentTableName ++ gs! "_COL_" ++ colName ++ gs! "_row_" ++ fmtNat rowIndex ++ parentTailName

/-- The cells over which the loops of `stringNested_recursive` go (gotables.go:4541-4545): column by column, columns of tables only.  (The code counts columns
and rows again in every iteration; the calls in between change names only.) -/
def tableCells (t : Table Addr) : List (Nat × Nat) :=
  (List.range t.colCount).flatMap fun (colIndex : Nat) =>
    match t.isTableColByColIndex colIndex with
    | .ok true => (List.range t.rowCount).map fun (rowIndex : Nat) => (colIndex, rowIndex)
    | _ => []

/-- The body of the loops of `stringNested_recursive` (gotables.go:4546-4579) for the cells that are left; an error ends the loops without notice.
`recur` is the call of itself; the state is the memory and the text so far. -/
def stringNestedCells (recur : Addr → GoStr → GoStr → Heap × GoStr → Out (Heap × GoStr)) (table : Addr) (parentTableName parentTailName : GoStr) :
    List (Nat × Nat) → Heap × GoStr → Out (Heap × GoStr)
  | [], st => .ok st
  | (colIndex, rowIndex) :: rest, (H, s) =>
    match H[table]? with
    | none => .panic
    | some t =>
      match t.getTypedByColIndex .table colIndex rowIndex with
      | .err _ => .ok (H, s)
      | .panic => .panic
      | .ok (.tbl (some nestedTable)) =>
        match H[nestedTable]? with
        | none => .panic
        | some nested =>
          let colName := match t.colName colIndex with | .ok n => n | _ => []
          let headName := nested.name
          let tailName := nestedTail parentTableName colName rowIndex parentTailName
          match nested.setName (headName ++ tailName) with
          | (nested', .ok ()) =>
            (recur nestedTable headName tailName (H.set nestedTable nested', s)).bind (stringNestedCells recur table parentTableName parentTailName rest)
          | _ => .ok (H, s)
      | .ok _ => .ok (H, s)

/-- `stringNested_recursive` (gotables.go:4521-4588).  The number bounds the depth; where it is reached the outcome is `panic` (a stack that overflows). -/
def stringNestedRec (P : PrintEnv) : Nat → Addr → GoStr → GoStr → Heap × GoStr → Out (Heap × GoStr)
  | 0, _, _, _, _ => .panic
  | depth + 1, table, parentTableName, parentTailName, (H, s) =>
    match H[table]? with
    | none => .ok (H, s)
    | some t =>
      (stringPadded P H t).bind fun text =>
        stringNestedCells (stringNestedRec P depth) table parentTableName parentTailName (tableCells t) (H, s ++ text ++ [10])

/-- `StringNested` (gotables.go:4485-4488): the memory afterwards and the text. -/
def stringNested (P : PrintEnv) (H : Heap) (depth : Nat) (table : Addr) : Out (Heap × GoStr) :=
  stringNestedRec P depth table (nameAt H table) [] (H, [])

end Verif
