import Verif.Model.Sort
import Verif.Model.FromTable

/-!
# Histories of calls on one table
-/

namespace Verif

variable {τ : Type}

/-- A mutating call with its arguments.  `nt` gives the fresh nil tables a call creates for `*Table` cells,
`choose` the random numbers of a shuffle, `srt` the sorting algorithm, `lower` is `strings.ToLower`. -/
inductive Op (τ : Type) where
  | setName (n : GoStr)
  | renameTable (n : GoStr)
  | setStructShape (b : Bool)
  | appendCol (nt : Nat → Nat → τ) (n ty : GoStr)
  | deleteCol (n : GoStr)
  | deleteColByColIndex (c : Int)
  | renameCol (a b : GoStr)
  | renameColByColIndex (c : Int) (b : GoStr)
  | appendRow (nt : Nat → Nat → τ)
  | appendRows (nt : Nat → Nat → τ) (n : Int)
  | deleteRow (r : Int)
  | deleteRows (a b : Int)
  | deleteRowsAll
  | setVal (n : GoStr) (r : Int) (v : Cell τ)
  | setValByColIndex (c r : Int) (v : Cell τ)
  | setTyped (ty : ColType) (n : GoStr) (r : Int) (v : Cell τ)
  | setTypedByColIndex (ty : ColType) (c r : Int) (v : Cell τ)
  | setCellToZeroValue (nt : τ) (n : GoStr) (r : Int)
  | setCellToZeroValueByColIndex (nt : τ) (c r : Int)
  | setColCellsToZeroValue (nt : Nat → Nat → τ) (n : GoStr)
  | setColCellsToZeroValueByColIndex (nt : Nat → Nat → τ) (c : Int)
  | setRowCellsToZeroValue (nt : Nat → Nat → τ) (r : Int)
  | setFloatCellToNaN (n : GoStr) (r : Int)
  | setFloatCellToNaNByColIndex (c r : Int)
  | setColFloatCellsToNaN (n : GoStr)
  | setColFloatCellsToNaNByColIndex (c : Int)
  | setRowFloatCellsToNaN (r : Int)
  | setAllFloatCellsToNaN
  | reorderCols (ns : List GoStr)
  | reorderColsByColIndex (order : List Int)
  | orderColsBySortKeys
  | reverse
  | shuffle (choose : Nat → Nat)
  | setSortKeys (ns : List GoStr)
  | setSortKeysReverse (ns : List GoStr)
  | setSortKeysFromTable (f : Table τ)
  | appendSortKey (n : GoStr)
  | deleteSortKey (n : GoStr)
  | sort (srt : GoSort (List (Cell τ))) (lower : GoStr → GoStr) (ns : List GoStr)
  | sortSimple (srt : GoSort (List (Cell τ))) (lower : GoStr → GoStr) (ns : List GoStr)
  | appendColsFromTable (nt : Nat → Nat → τ) (f : Table τ)
  | appendRowsFromTable (nt : Nat → Nat → τ) (f : Table τ) (a b : Int)

namespace Op

open Table

/-- Perform one call. -/
def step (t : Table τ) : Op τ → Table τ × Out Unit
  | .setName n => t.setName n
  | .renameTable n => t.setName n
  | .setStructShape b => t.setStructShape b
  | .appendCol nt n ty => t.appendCol nt n ty
  | .deleteCol n => t.deleteCol n
  | .deleteColByColIndex c => t.deleteColByColIndex c
  | .renameCol a b => t.renameCol a b
  | .renameColByColIndex c b => t.renameColByColIndex c b
  | .appendRow nt => t.appendRow nt
  | .appendRows nt n => t.appendRows nt n
  | .deleteRow r => t.deleteRow r
  | .deleteRows a b => t.deleteRows a b
  | .deleteRowsAll => t.deleteRowsAll
  | .setVal n r v => t.setVal n r v
  | .setValByColIndex c r v => t.setValByColIndex c r v
  | .setTyped ty n r v => t.setTyped ty n r v
  | .setTypedByColIndex ty c r v => t.setTypedByColIndex ty c r v
  | .setCellToZeroValue nt n r => t.setCellToZeroValue nt n r
  | .setCellToZeroValueByColIndex nt c r => t.setCellToZeroValueByColIndex nt c r
  | .setColCellsToZeroValue nt n => t.setColCellsToZeroValue nt n
  | .setColCellsToZeroValueByColIndex nt c => t.setColCellsToZeroValueByColIndex nt c
  | .setRowCellsToZeroValue nt r => t.setRowCellsToZeroValue nt r
  | .setFloatCellToNaN n r => t.setFloatCellToNaN n r
  | .setFloatCellToNaNByColIndex c r => t.setFloatCellToNaNByColIndex c r
  | .setColFloatCellsToNaN n => t.setColFloatCellsToNaN n
  | .setColFloatCellsToNaNByColIndex c => t.setColFloatCellsToNaNByColIndex c
  | .setRowFloatCellsToNaN r => t.setRowFloatCellsToNaN r
  | .setAllFloatCellsToNaN => t.setAllFloatCellsToNaN
  | .reorderCols ns => t.reorderCols ns
  | .reorderColsByColIndex order => t.reorderColsByColIndex order
  | .orderColsBySortKeys => t.orderColsBySortKeys
  | .reverse => t.reverse
  | .shuffle choose => t.shuffle choose
  | .setSortKeys ns => t.setSortKeys ns
  | .setSortKeysReverse ns => t.setSortKeysReverse ns
  | .setSortKeysFromTable f => t.setSortKeysFromTable f
  | .appendSortKey n => t.appendSortKey n
  | .deleteSortKey n => t.deleteSortKey n
  | .sort srt lower ns => t.sort srt lower ns
  | .sortSimple srt lower ns => t.sortSimple srt lower ns
  | .appendColsFromTable nt f => t.appendColsFromTable nt f
  | .appendRowsFromTable nt f a b => t.appendRowsFromTable nt f a b

/-- The table after a sequence of calls, whatever each of them returned. -/
def run (t : Table τ) : List (Op τ) → Table τ
  | [] => t
  | op :: ops => run (op.step t).1 ops

end Op
end Verif
