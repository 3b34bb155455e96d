import Verif.Model.Reorder
import Verif.Go.Float

/-!
# Sort keys, sorting and searching (sort.go)

`lower` stands for `strings.ToLower`, a library function outside `/repo`; it is an arbitrary function here.
-/

namespace Verif

variable {τ : Type}

/-! ## Comparison functions -/

/-- Go's `<` on strings: bytewise lexicographic. -/
def strLt : GoStr → GoStr → Bool
  | [], [] => false
  | [], _ :: _ => true
  | _ :: _, [] => false
  | a :: as, b :: bs => if a < b then true else if b < a then false else strLt as bs

/-- `compare_Alphabetic_string` (sort.go:297-317). -/
def compareString (lower : GoStr → GoStr) (si sj : GoStr) : Int :=
  let siLower := lower si
  let sjLower := lower sj
  if strLt siLower sjLower then -1
  else if strLt sjLower siLower then 1
  else if strLt si sj then -1
  else if strLt sj si then 1
  else 0

/-- `compare_int`, `compare_uint8`, … (sort.go:319-437), the same text for each integer type. -/
def compareInt (i j : Int) : Int :=
  if i < j then -1 else if i > j then 1 else 0

/-- `compare_float32` (sort.go:439-449). -/
def compareF32 (i j : BitVec 32) : Int :=
  if f32Lt i j then -1 else if f32Lt j i then 1 else 0

/-- `compare_float64` (sort.go:451-461). -/
def compareF64 (i j : BitVec 64) : Int :=
  if f64Lt i j then -1 else if f64Lt j i then 1 else 0

/-- `compare_bool` (sort.go:463-471). -/
def compareBool (i j : Bool) : Int :=
  if !i && j then -1 else if i && !j then 1 else 0

/-- The comparison functions of `compareFuncs` (sort.go:39-54).  `none` is the panic of a failed type assertion,
or of calling a missing function. -/
def compareFn (lower : GoStr → GoStr) : ColType → Cell τ → Cell τ → Option Int
  | .bool, .bool a, .bool b => some (compareBool a b)
  | .float32, .f32 a, .f32 b => some (compareF32 a b)
  | .float64, .f64 a, .f64 b => some (compareF64 a b)
  | .uint, .int .uint a, .int .uint b => some (compareInt a b)
  | .int, .int .int a, .int .int b => some (compareInt a b)
  | .int16, .int .int16 a, .int .int16 b => some (compareInt a b)
  | .int32, .int .int32 a, .int .int32 b => some (compareInt a b)
  | .int64, .int .int64 a, .int .int64 b => some (compareInt a b)
  | .int8, .int .int8 a, .int .int8 b => some (compareInt a b)
  | .string, .str a, .str b => some (compareString lower a b)
  | .uint16, .int .uint16 a, .int .uint16 b => some (compareInt a b)
  | .uint32, .int .uint32 a, .int .uint32 b => some (compareInt a b)
  | .uint64, .int .uint64 a, .int .uint64 b => some (compareInt a b)
  | .uint8, .int .uint8 a, .int .uint8 b => some (compareInt a b)
  | _, _, _ => none

/-- `_, exists := compareFuncs[colType]` (sort.go:253, map at sort.go:39-54). -/
def hasCompareFn : ColType → Bool
  | .bool | .float32 | .float64 | .uint | .int | .int16 | .int32 | .int64 | .int8 | .string
  | .uint16 | .uint32 | .uint64 | .uint8 => true
  | .byteSlice | .uint8Slice | .byte | .rune | .table | .time => false

namespace Table

/-! ## Sort keys -/

/-- `AppendSortKey` (sort.go:233-262). -/
def appendSortKey (t : Table τ) (colName : GoStr) : Table τ × Out Unit :=
  match t.getColInfo colName with
  | .err e => (t, .err e)
  | .panic => (t, .panic)
  | .ok (_, ty) =>
    if hasCompareFn ty = false then (t, .err .badSortKey)
    else ({ t with sortKeys := t.sortKeys ++ [{ colName := colName, colType := ty, reverse := false }] }, .ok ())

/-- `SetSortKeys` (sort.go:168-186). -/
def setSortKeys (t : Table τ) (names : List GoStr) : Table τ × Out Unit :=
  forEach (fun (n : GoStr) (t : Table τ) => t.appendSortKey n) names { t with sortKeys := [] }

/-- `setSortKeyReverse` (sort.go:210-231). -/
def setSortKeyReverse (t : Table τ) (colName : GoStr) : Table τ × Out Unit :=
  if t.sortKeys.length = 0 then (t, .err .noSortKeys)
  else
    let t' := { t with sortKeys := t.sortKeys.map (fun k => if k.colName = colName then { k with reverse := true } else k) }
    if t.sortKeys.any (fun k => k.colName = colName) then (t', .ok ()) else (t', .err .notFound)

/-- `SetSortKeysReverse` (sort.go:195-208). -/
def setSortKeysReverse (t : Table τ) (names : List GoStr) : Table τ × Out Unit :=
  forEach (fun (n : GoStr) (t : Table τ) => t.setSortKeyReverse n) names t

/-- `SetSortKeysFromTable` (sort.go:795-846).
Simplification: the detour through `GetSortKeysAsTable` is the identity on names and directions. -/
def setSortKeysFromTable (t fromTable : Table τ) : Table τ × Out Unit :=
  if fromTable.sortKeys.length = 0 then (t, .err .noSortKeys)
  else
    match t.setSortKeys (fromTable.sortKeys.map (·.colName)) with
    | (t1, .ok ()) => t1.setSortKeysReverse ((fromTable.sortKeys.filter (·.reverse)).map (·.colName))
    | r => r

/-- The loop of `DeleteSortKey` (sort.go:275-281): remove the first key of that name. -/
def deleteKeyLoop (keyName : GoStr) : List SortKey → Option (List SortKey)
  | [] => none
  | k :: ks => if k.colName = keyName then some ks else (deleteKeyLoop keyName ks).map (k :: ·)

/-- `DeleteSortKey` (sort.go:265-284). -/
def deleteSortKey (t : Table τ) (keyName : GoStr) : Table τ × Out Unit :=
  match t.getColInfo keyName with
  | .err e => (t, .err e)
  | .panic => (t, .panic)
  | .ok _ =>
    match deleteKeyLoop keyName t.sortKeys with
    | some ks => ({ t with sortKeys := ks }, .ok ())
    | none => (t, .err .notFound)

/-- `IsSortKey` (sort.go:894-911). -/
def isSortKey (t : Table τ) (colName : GoStr) : Out Bool :=
  (t.hasCol colName).bind fun _ => .ok (t.sortKeys.any (fun k => k.colName = colName))

/-! ## Sorting -/

/-- The comparison closure of `sortByKeys` (sort.go:571-590); `none` is a panic.
A key column that no longer exists gives index -1. -/
def lessByKeys (lower : GoStr → GoStr) (t : Table τ) : List SortKey → List (Cell τ) → List (Cell τ) → Option Bool
  | [], _, _ => some false
  | k :: ks, iRow, jRow =>
    let colIndex : Int := match t.colIndex k.colName with | .ok i => (i : Int) | _ => -1
    match goGet? iRow colIndex, goGet? jRow colIndex with
    | some iVal, some jVal =>
      match compareFn lower k.colType iVal jVal with
      | none => none
      | some compared =>
        let compared := if k.reverse then compared * (-1) else compared
        if compared ≠ 0 then some (decide (compared < 0)) else lessByKeys lower t ks iRow jRow
    | _, _ => none

end Table

/-- The documented contract of `sort.Sort` for elements of type `α`: it permutes the elements; if `Less` is a strict weak order
the result is sorted; it calls `Less` at least once when there are two or more elements, and panics only if some `Less` call panics. -/
structure GoSort (α : Type) where
  run : (α → α → Option Bool) → List α → Option (List α)
  perm : ∀ less l l', run less l = some l' → l'.Perm l
  noPanic : ∀ less l, (∀ a ∈ l, ∀ b ∈ l, (less a b).isSome = true) → (run less l).isSome = true
  sorted : ∀ less l l', run less l = some l' →
    (∀ a ∈ l, ∀ b ∈ l, (less a b).isSome = true) →
    (∀ a ∈ l, ∀ b ∈ l, less a b = some true → less b a = some false) →
    (∀ a ∈ l, ∀ b ∈ l, ∀ c ∈ l, less a b = some false → less b c = some false → less a c = some false) →
    l'.Pairwise (fun a b => less b a = some false)
  panics : ∀ less l, 2 ≤ l.length → (∀ a ∈ l, ∀ b ∈ l, less a b = none) → run less l = none

namespace Table

/-- `sortByKeys` (sort.go:570-591). -/
def sortByKeys (srt : GoSort (List (Cell τ))) (lower : GoStr → GoStr) (t : Table τ) : Table τ × Out Unit :=
  match srt.run (t.lessByKeys lower t.sortKeys) t.rows with
  | none => (t, .panic)
  | some rows => ({ t with rows := rows }, .ok ())

/-- `Sort` (sort.go:489-513). -/
def sort (srt : GoSort (List (Cell τ))) (lower : GoStr → GoStr) (t : Table τ) (sortCols : List GoStr) : Table τ × Out Unit :=
  let r := if sortCols.length > 0 then t.setSortKeys sortCols else (t, .ok ())
  match r with
  | (t1, .err e) => (t1, .err e)
  | (t1, .panic) => (t1, .panic)
  | (t1, .ok ()) =>
    if t1.sortKeys.length = 0 then (t1, .err .noSortKeys) else t1.sortByKeys srt lower

/-- `SortSimple` (sort.go:534-552). -/
def sortSimple (srt : GoSort (List (Cell τ))) (lower : GoStr → GoStr) (t : Table τ) (sortCols : List GoStr) : Table τ × Out Unit :=
  if sortCols.length = 0 then (t, .err .noSortKeys)
  else
    match t.setSortKeys sortCols with
    | (t1, .ok ()) => t1.sortByKeys srt lower
    | r => r

/-- `IsValidCellValue` (gotables.go:3133-3150), `IsValidColValue` (gotables.go:3124-3126).
`reflect.Type.Name()` is "uint8" for a byte, "int32" for a rune, "" for slices and pointers and "Time" for `time.Time`. -/
def isValidCellValue (t : Table τ) (colName : GoStr) (value : Cell τ) : Out Unit :=
  (t.colType colName).bind fun ty =>
    match value with
    | .nil => .err .nilVal
    | .bytes _ | .tbl _ | .time _ => .err .typeMismatch
    | v => if v.dynType = some ty then .ok () else .err .typeMismatch

/-- The loop of `checkSearchArguments` over the keys (sort.go:619-633). -/
def checkSearchValues (t : Table τ) : List SortKey → List (Cell τ) → Out Unit
  | [], _ => .ok ()
  | _ :: _, [] => .panic
  | k :: ks, v :: vs => (t.isValidCellValue k.colName v).bind fun _ => checkSearchValues t ks vs

/-- `checkSearchArguments` (sort.go:593-636). -/
def checkSearchArguments (t : Table τ) (searchValues : List (Cell τ)) : Out Unit :=
  if searchValues.length = 0 then .err .badSearch
  else if t.sortKeys.length = 0 then .err .noSortKeys
  else if searchValues.length = 1 ∧ t.sortKeys.length > 1 then .err .badSearch
  else if searchValues.length ≠ t.sortKeys.length then .err .badSearch
  else t.checkSearchValues t.sortKeys searchValues

end Table

/-! ## Binary search -/

/-- The loop of `sort.Search` (same text as sort.go:1065-1083).  A call of `f` that panics is `none`, and so is then the search. -/
def searchLoop (f : Nat → Option Bool) (i j : Nat) : Option Nat :=
  if _h : i < j then
    let m := i + (j - i) / 2
    match f m with
    | none => none
    | some false => searchLoop f (m + 1) j
    | some true => searchLoop f i m
  else some i
termination_by j - i

/-- `SearchFirst(n, f)` (sort.go:1200-1202): `sort.Search`. -/
def searchFirstFn (n : Nat) (f : Nat → Option Bool) : Option Nat := searchLoop f 0 n

/-- The loop of `SearchLast(n, f)` (sort.go:1136-1146).  `f` is only called with `h ≥ 0`. -/
def searchLastLoop (f : Nat → Option Bool) (i j : Int) : Option Int :=
  if _h : i < j - 1 then
    let m := i + (j - i) / 2
    match f m.toNat with
    | none => none
    | some false => searchLastLoop f i m
    | some true => searchLastLoop f m j
  else some i
termination_by (j - i).toNat
decreasing_by all_goals omega

/-- `SearchLast(n, f)` (sort.go:1135-1147). -/
def searchLastFn (n : Nat) (f : Nat → Option Bool) : Option Int := searchLastLoop f (-1) n

namespace Table

/-- The closure passed to `SearchFirst` in `searchByKeysFirst` (sort.go:671-704); `none` is a panic in a comparison. -/
def geByKeys (lower : GoStr → GoStr) (t : Table τ) (row : Nat) : List SortKey → List (Cell τ) → Option Bool
  | [], _ => some false
  | k :: ks, vs =>
    match vs with
    | [] => none
    | v :: vs =>
      match t.getVal k.colName row with
      | .err _ => some false
      | .panic => none
      | .ok cellVal =>
        match compareFn lower k.colType cellVal v with
        | none => none
        | some compared =>
          let compared := if k.reverse then compared * (-1) else compared
          if ks.length = 0 then some (decide (compared ≥ 0))
          else if compared > 0 then some true
          else if compared < 0 then some false
          else geByKeys lower t row ks vs

/-- The closure passed to `SearchLast` in `searchByKeysLast` (sort.go:1015-1048). -/
def leByKeys (lower : GoStr → GoStr) (t : Table τ) (row : Nat) : List SortKey → List (Cell τ) → Option Bool
  | [], _ => some false
  | k :: ks, vs =>
    match vs with
    | [] => none
    | v :: vs =>
      match t.getVal k.colName row with
      | .err _ => some false
      | .panic => none
      | .ok cellVal =>
        match compareFn lower k.colType cellVal v with
        | none => none
        | some compared =>
          let compared := if k.reverse then compared * (-1) else compared
          if ks.length = 0 then some (decide (compared ≤ 0))
          else if compared < 0 then some true
          else if compared > 0 then some false
          else leByKeys lower t row ks vs

/-- `searchValuesMatchRowValues` (sort.go:720-736).  The error of `GetVal` is ignored, the value is then nil and the
comparison panics; `none` is that panic. -/
def searchValuesMatch (lower : GoStr → GoStr) (t : Table τ) (searchIndex : Int) : List SortKey → List (Cell τ) → Option Bool
  | [], _ => some true
  | _ :: _, [] => none
  | k :: ks, v :: vs =>
    match t.getVal k.colName searchIndex with
    | .ok cellVal =>
      match compareFn lower k.colType cellVal v with
      | none => none
      | some compared => if compared ≠ 0 then some false else searchValuesMatch lower t searchIndex ks vs
    | _ => none

/-- `searchByKeysFirst` (sort.go:666-717). -/
def searchByKeysFirst (lower : GoStr → GoStr) (t : Table τ) (vs : List (Cell τ)) : Out Int :=
  match searchFirstFn t.rowCount (fun r => t.geByKeys lower r t.sortKeys vs) with
  | none => .panic
  | some searchIndex =>
    if searchIndex < t.rowCount then
      match t.searchValuesMatch lower searchIndex t.sortKeys vs with
      | none => .panic
      | some true => .ok searchIndex
      | some false => .err .notFound
    else .err .notFound

/-- `searchByKeysLast` (sort.go:1010-1061).  The index may be -1; `-1 < RowCount()` holds and the row values are then compared. -/
def searchByKeysLast (lower : GoStr → GoStr) (t : Table τ) (vs : List (Cell τ)) : Out Int :=
  match searchLastFn t.rowCount (fun r => t.leByKeys lower r t.sortKeys vs) with
  | none => .panic
  | some searchIndex =>
    if searchIndex < t.rowCount then
      match t.searchValuesMatch lower searchIndex t.sortKeys vs with
      | none => .panic
      | some true => .ok searchIndex
      | some false => .err .notFound
    else .err .notFound

/-- `SearchFirst` (sort.go:654-664), `Search` (sort.go:645-647). -/
def searchFirst (lower : GoStr → GoStr) (t : Table τ) (vs : List (Cell τ)) : Out Int :=
  (t.checkSearchArguments vs).bind fun _ => t.searchByKeysFirst lower vs

/-- `SearchLast` (sort.go:998-1008). -/
def searchLast (lower : GoStr → GoStr) (t : Table τ) (vs : List (Cell τ)) : Out Int :=
  (t.checkSearchArguments vs).bind fun _ => t.searchByKeysLast lower vs

/-- `SearchRange` (sort.go:1209-1230). -/
def searchRange (lower : GoStr → GoStr) (t : Table τ) (vs : List (Cell τ)) : Out (Int × Int) :=
  (t.checkSearchArguments vs).bind fun _ =>
    (t.searchFirst lower vs).bind fun first =>
      (t.searchLast lower vs).bind fun last => .ok (first, last)

/-- The loop of `CompareRows` (sort.go:769-782); errors of `GetVal` are ignored and lead to a panic in the comparison. -/
def compareRowsLoop (lower : GoStr → GoStr) (t : Table τ) (r1 r2 : Int) : List SortKey → Out Int
  | [] => .ok 0
  | k :: ks =>
    match t.getVal k.colName r1, t.getVal k.colName r2 with
    | .ok c1, .ok c2 =>
      match compareFn lower k.colType c1 c2 with
      | none => .panic
      | some compared => if compared ≠ 0 then .ok compared else compareRowsLoop lower t r1 r2 ks
    | _, _ => .panic

/-- `CompareRows` (sort.go:746-783).  The `-2` returned with an error is left out. -/
def compareRows (lower : GoStr → GoStr) (t : Table τ) (r1 r2 : Int) : Out Int :=
  if r1 < 0 ∨ r1 > (t.rowCount : Int) - 1 then .err .noRow
  else if r2 < 0 ∨ r2 > (t.rowCount : Int) - 1 then .err .noRow
  else if t.sortKeys.length = 0 then .err .noSortKeys
  else t.compareRowsLoop lower r1 r2 t.sortKeys

/-! ## Column order and sort keys -/

/-- The first loop of `OrderColsBySortKeys` (sort.go:866-869): `newOrder[key] = keyName`, from position `i`. -/
def fillKeys (keys : List SortKey) (i : Nat) (newOrder : List GoStr) : Option (List GoStr) :=
  match keys with
  | [] => some newOrder
  | k :: ks =>
    match goSet? newOrder i k.colName with
    | none => none
    | some newOrder' => fillKeys ks (i + 1) newOrder'

/-- The second loop of `OrderColsBySortKeys` (sort.go:873-885): `newOrder[row] = colName` for columns that are not keys. -/
def fillRest (t : Table τ) (cols : List GoStr) (row : Nat) (newOrder : List GoStr) : Out (List GoStr) :=
  match cols with
  | [] => .ok newOrder
  | n :: ns =>
    (t.isSortKey n).bind fun isKey =>
      if isKey then fillRest t ns row newOrder
      else
        match goSet? newOrder row n with
        | none => .panic
        | some newOrder' => fillRest t ns (row + 1) newOrder'

/-- `OrderColsBySortKeys` (sort.go:853-891). -/
def orderColsBySortKeys (t : Table τ) : Table τ × Out Unit :=
  match fillKeys t.sortKeys 0 (List.replicate t.colCount []) with
  | none => (t, .panic)
  | some newOrder =>
    match t.fillRest t.colNames t.sortKeys.length newOrder with
    | .err e => (t, .err e)
    | .panic => (t, .panic)
    | .ok newOrder => t.reorderCols newOrder

/-- `m[k1], m[k2] = m[k2], m[k1]` on a Go map (a missing key reads as 0). -/
def swapMap (m : GoMap) (k1 k2 : GoStr) : GoMap :=
  let v1 := (m.get? k1).getD 0
  let v2 := (m.get? k2).getD 0
  (m.insert k1 v2).insert k2 v1

/-- `SwapColsByColIndex` (sort.go:916-956).  The cells of the rows are not moved. -/
def swapColsByColIndex (t : Table τ) (c1 c2 : Int) : Table τ × Out Unit :=
  if c1 < 0 ∨ c1 > (t.colCount : Int) - 1 then (t, .err .noCol)
  else if c2 < 0 ∨ c2 > (t.colCount : Int) - 1 then (t, .err .noCol)
  else if c1 = c2 then (t, .err .sameCol)
  else
    match swapRows? t.colNames c1.toNat c2.toNat, swapRows? t.colTypes c1.toNat c2.toNat with
    | some names, some types =>
      match names[c1.toNat]?, names[c2.toNat]? with
      | some n1, some n2 => ({ t with colNames := names, colTypes := types, colMap := swapMap t.colMap n1 n2 }, .ok ())
      | _, _ => (t, .panic)
    | _, _ => (t, .panic)

/-- `SwapCols` (sort.go:961-991).  The cells of the rows are not moved. -/
def swapCols (t : Table τ) (n1 n2 : GoStr) : Table τ × Out Unit :=
  match t.colIndex n1, t.colIndex n2 with
  | .ok c1, .ok c2 =>
    if n1 = n2 then (t, .err .sameCol)
    else
      match swapRows? t.colNames c1 c2, swapRows? t.colTypes c1 c2 with
      | some names, some types => ({ t with colNames := names, colTypes := types, colMap := swapMap t.colMap n1 n2 }, .ok ())
      | _, _ => (t, .panic)
  | .panic, _ => (t, .panic)
  | .ok _, .panic => (t, .panic)
  | _, _ => (t, .err .noCol)

end Table
end Verif
