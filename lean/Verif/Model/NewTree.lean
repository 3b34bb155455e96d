import Verif.Model.Tree
import Verif.Model.Columns

/-!
# Trees of tables, and parents
-/

namespace Verif

/-- `SetTable` (helpers.go:853-905): sets the parent of the new value, whether or not the cell exists. -/
def setTableAt (H : Heap) (a : Addr) (colName : GoStr) (rowIndex : Int) (newVal : Addr) : Heap × Out Unit :=
  match H[newVal]?, H[a]? with
  | some new, some _ =>
    let H1 := H.set newVal { new with parent := some a }
    match H1[a]? with
    | none => (H1, .panic)
    | some table =>
      match table.setTyped .table colName rowIndex (.tbl (some newVal)) with
      | (table', o) => (H1.set a table', o)
  | _, _ => (H, .panic)

/-- The body of the loops of `newTreeTable_recursive` (tree.go:652-730) at one cell of `table`; `recur` is the call of itself with a smaller depth. -/
def newTreeCell (limit : Nat) (originalTable : Addr) (recur : Addr → Heap → Heap × Out Unit) (table : Addr) (rowIndex colIndex : Nat) (H : Heap) : Heap × Out Unit :=
  match H[table]? with
  | none => (H, .err .nilTable)
  | some t =>
    match t.isTableColByColIndex colIndex with
    | .err e => (H, .err e)
    | .panic => (H, .panic)
    | .ok false => (H, .ok ())
    | .ok true =>
      match t.getTypedByColIndex .table colIndex rowIndex with
      | .err e => (H, .err e)
      | .panic => (H, .panic)
      | .ok (.tbl (some nestedTable)) =>
        match H[nestedTable]? with
        | none => (H, .panic)
        | some nested =>
          if nested.isNilTable then
            match t.colName colIndex with
            | .err e => (H, .err e)
            | .panic => (H, .panic)
            | .ok colName =>
              match copyAt H limit originalTable with
              | (H1, .err e) => (H1, .err e)
              | (H1, .panic) => (H1, .panic)
              | (H1, .ok tableCopy) =>
                match setTableAt H1 table colName rowIndex tableCopy with
                | (H2, .ok ()) => recur nestedTable H2
                | (H2, o) => (H2, o)
          else (H, .ok ())
      | .ok _ => (H, .err .nilTable)

/-- `newTreeTable_recursive` (tree.go:621-735); the depth is not negative.  `limit` bounds the circular reference check of `Copy`. -/
def newTreeRec (limit : Nat) (originalTable : Addr) : Nat → Addr → Heap → Heap × Out Unit
  | 0, _, H => (H, .ok ())
  | depth + 1, table, H =>
    match H[table]? with
    | none => (H, .err .nilTable)
    | some t =>
      forEach (fun rowIndex => forEach (fun colIndex => newTreeCell limit originalTable (newTreeRec limit originalTable depth) table rowIndex colIndex) (List.range t.colCount))
        (List.range t.rowCount) H

/-- `NewTreeTable` (tree.go:584-619): the memory afterwards and the table returned. -/
def newTreeTable (H : Heap) (limit : Nat) (table : Addr) (depth : Int) : Heap × Out Addr :=
  match copyAt H limit table with
  | (H1, .err e) => (H1, .err e)
  | (H1, .panic) => (H1, .panic)
  | (H1, .ok nestedTable) =>
    if depth < 0 then (H1, .err .other)
    else
      match newTreeRec limit table depth.toNat nestedTable H1 with
      | (H2, .ok ()) => (H2, .ok table)
      | (H2, .err e) => (H2, .err e)
      | (H2, .panic) => (H2, .panic)

/-- `ParentTable` (gotables.go:4442-4450). -/
def parentTable (H : Heap) (a : Addr) : Option Addr := (H[a]?).bind Table.parent

end Verif
