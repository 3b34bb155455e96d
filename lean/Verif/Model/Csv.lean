import Verif.Go.Csv
import Verif.Model.Printer

/-!
# GetTableAsCSV
-/

namespace Verif
namespace Table

/-- The switch of `GetValAsStringByColIndex` (gotables.go:2940-3010): strings and runes without delimiters and escapes, the others as in `cellText`. -/
def plainText (P : PrintEnv) (H : Heap) (ty : ColType) (c : Cell Addr) : Out GoStr :=
  match ty, c with
  | .string, .str s => .ok s
  | .rune, .int .int32 r => .ok (encodeRune (if 0 ≤ r then r.toNat else 0x110000))
  | .string, _ => .panic
  | .rune, _ => .panic
  | _, _ => cellText P H ty c

/-- `GetValAsStringByColIndex` (gotables.go:2896-3015). -/
def getValAsStringByColIndex (P : PrintEnv) (H : Heap) (t : Table Addr) (colIndex rowIndex : Int) : Out GoStr :=
  if t.isNilTable then .err .nilTable
  else
    (t.getValByColIndex colIndex rowIndex).bind fun c =>
      match goGet? t.colTypes colIndex with
      | none => .panic
      | some ty => plainText P H ty c

/-- The headings (gotables.go:1716-1741): the column names, or other names given by the caller where they are not empty. -/
def csvHeadings (t : Table Addr) (headings : List GoStr) : Out (List GoStr) :=
  if headings.length > 0 then
    if headings.length ≠ t.colCount then .err .other
    else .ok ((headings.zip t.colNames).map fun (h, n) => if h.length > 0 then h else n)
  else .ok t.colNames

/-- The field of a cell (gotables.go:1752-1766): a NaN in a float column is written as the empty text.  `none` is the early `return "", nil`. -/
def csvCell (P : PrintEnv) (H : Heap) (t : Table Addr) (rowIndex colIndex : Nat) : Out (Option GoStr) :=
  match t.getValAsStringByColIndex P H colIndex rowIndex with
  | .err _ => .ok none
  | .panic => .panic
  | .ok sVal =>
    match goGet? t.colTypes colIndex with
    | none => .panic
    | some ty => .ok (some (if (ty = .float32 ∨ ty = .float64) ∧ sVal = gs! "NaN" then [] else sVal))

/-- The loop over the columns (gotables.go:1750-1767). -/
def csvCells (P : PrintEnv) (H : Heap) (t : Table Addr) (rowIndex : Nat) : List Nat → Out (Option (List GoStr))
  | [] => .ok (some [])
  | c :: cs =>
    (csvCell P H t rowIndex c).bind fun f =>
      match f with
      | none => .ok none
      | some f => (csvCells P H t rowIndex cs).bind fun fs => .ok (fs.map fun fs => f :: fs)

/-- The loop over the rows (gotables.go:1749-1773): the text written. -/
def csvRows (P : PrintEnv) (H : Heap) (t : Table Addr) : List Nat → Out (Option GoStr)
  | [] => .ok (some [])
  | r :: rs =>
    (csvCells P H t r (List.range t.colNames.length)).bind fun fs =>
      match fs with
      | none => .ok none
      | some fs => (csvRows P H t rs).bind fun s => .ok (s.map fun s => csvRecord fs ++ s)

/-- `GetTableAsCSV` (gotables.go:1701-1785).  Writing to a buffer does not fail. -/
def getTableAsCSV (P : PrintEnv) (H : Heap) (t : Table Addr) (headings : List GoStr) : Out GoStr :=
  if t.isNilTable then .err .nilTable
  else
    (t.csvHeadings headings).bind fun hs =>
      (t.csvRows P H (List.range t.rowCount)).bind fun s =>
        match s with
        | none => .ok []
        | some s => .ok (csvRecord hs ++ s)

end Table
end Verif
