import Verif.Model.Merge
import Verif.Model.Printer

/-!
# Sort keys as a table (sort.go) and nesting one table into another by key (nest.go)
-/

namespace Verif

variable {τ : Type}

namespace Table

/-- The body of the loop of `GetSortKeysAsTable` (sort.go:126-148) for the key `key` at `rowIndex`. -/
def addKeyRow (nt : Nat → Nat → τ) (rowIndex : Nat) (key : SortKey) (k : Table τ) : Out (Table τ) :=
  (orDrop (k.appendRow nt)).bind fun k =>
  (orDrop (k.setTyped .int (gs! "index") rowIndex (.int .int rowIndex))).bind fun k =>
  (orDrop (k.setTyped .string (gs! "colName") rowIndex (.str key.colName))).bind fun k =>
  (orDrop (k.setTyped .string (gs! "colType") rowIndex (.str key.colType.name))).bind fun k =>
  orDrop (k.setTyped .bool (gs! "reverse") rowIndex (.bool key.reverse))

/-- The loop of `GetSortKeysAsTable` (sort.go:126-148), from row `rowIndex` on. -/
def addKeyRows (nt : Nat → Nat → τ) : Nat → List SortKey → Table τ → Out (Table τ)
  | _, [], k => .ok k
  | rowIndex, key :: keys, k => (addKeyRow nt rowIndex key k).bind (addKeyRows nt (rowIndex + 1) keys)

/-- `GetSortKeysAsTable` (sort.go:102-151). -/
def getSortKeysAsTable (nt : Nat → Nat → τ) (t : Table τ) : Out (Table τ) :=
  (newTable (gs! "SortKeys")).bind fun k =>
  (orDrop (k.appendCol nt (gs! "index") (gs! "int"))).bind fun k =>
  (orDrop (k.appendCol nt (gs! "colName") (gs! "string"))).bind fun k =>
  (orDrop (k.appendCol nt (gs! "colType") (gs! "string"))).bind fun k =>
  (orDrop (k.appendCol nt (gs! "reverse") (gs! "bool"))).bind fun k =>
  addKeyRows nt 0 t.sortKeys k

/-- The loop of `Nest` over the key columns (nest.go:106-111): the cells of row `rowIndex`. -/
def keyVals (t : Table τ) (rowIndex : Nat) : List GoStr → Out (List (Cell τ))
  | [] => .ok []
  | col :: cols => (t.getVal col rowIndex).bind fun v => (keyVals t rowIndex cols).bind fun vs => .ok (v :: vs)

/-- The body of the loop of `Nest` over the rows (nest.go:103-128). -/
def nestRow (P : PrintEnv) (H : Heap) (lower : GoStr → GoStr) (nt : Nat → Nat → Addr) (nestable : Table Addr) (cols : List GoStr)
    (nestColName : GoStr) (rowIndex : Nat) (t : Table Addr) : Table Addr × Out Unit :=
  let text := (keyVals t rowIndex cols).bind fun keys =>
    (nestable.searchRange lower keys).bind fun range =>
    (nestable.newTableFromRows nt nestColName range.1 range.2).bind fun newTable =>
    stringUnpadded P H newTable
  match text with
  | .err e => (t, .err e)
  | .panic => (t, .panic)
  | .ok text => t.setTyped .string nestColName rowIndex (.str text)

/-- `Nest` (nest.go:45-131) for a receiver and an argument that are different tables: both afterwards, and the outcome.
Simplification: the names of the key columns are taken from the sort keys; the detour through `GetSortKeysAsTable` (nest.go:79-91) is the identity
on them (`C65_names`). -/
def nest (P : PrintEnv) (H : Heap) (srt : GoSort (List (Cell Addr))) (lower : GoStr → GoStr) (nt : Nat → Nat → Addr) (t nestable : Table Addr)
    (nestColName : GoStr) : (Table Addr × Table Addr) × Out Unit :=
  let first := if t.sortKeys.length = 0 then nestable.setSortKeysFromTable t else (nestable, .ok ())
  match first with
  | (nestable, .err e) => ((t, nestable), .err e)
  | (nestable, .panic) => ((t, nestable), .panic)
  | (nestable, .ok ()) =>
    match nestable.setSortKeysFromTable t with
    | (nestable, .err e) => ((t, nestable), .err e)
    | (nestable, .panic) => ((t, nestable), .panic)
    | (nestable, .ok ()) =>
      match t.sort srt lower [] with
      | (t, .err e) => ((t, nestable), .err e)
      | (t, .panic) => ((t, nestable), .panic)
      | (t, .ok ()) =>
        match nestable.sort srt lower [] with
        | (nestable, .err e) => ((t, nestable), .err e)
        | (nestable, .panic) => ((t, nestable), .panic)
        | (nestable, .ok ()) =>
          let cols := t.sortKeys.map (·.colName)
          match t.appendCol nt nestColName (gs! "string") with
          | (t, .err e) => ((t, nestable), .err e)
          | (t, .panic) => ((t, nestable), .panic)
          | (t, .ok ()) =>
            let r := forEach (nestRow P H lower nt nestable cols nestColName) (List.range t.rowCount) t
            ((r.1, nestable), r.2)

end Table

end Verif
