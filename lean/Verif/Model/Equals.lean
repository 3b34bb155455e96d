import Verif.Model.Core
import Verif.Go.Float

/-!
# Table comparison
-/

namespace Verif

variable {τ : Type}

/-- `for i := range l { if err := f(i); err != nil { return err } }` without a state. -/
def checkEach {ι : Type} (f : ι → Out Unit) : List ι → Out Unit
  | [] => .ok ()
  | i :: is => (f i).bind fun _ => checkEach f is

/-- Go's `v1 == v2` on the `interface{}` values of atomic columns: same dynamic type and equal values.
Simplification: slices (where Go panics), `time.Time` and pointers are not compared this way by the code and give `false`. -/
def goEq : Cell τ → Cell τ → Bool
  | .nil, .nil => true
  | .str a, .str b => a = b
  | .bool a, .bool b => a = b
  | .int k a, .int l b => k = l && a = b
  | .f32 a, .f32 b => f32Eq a b
  | .f64 a, .f64 b => f64Eq a b
  | _, _ => false

/-- The loop of `Equals` over the bytes of two slices of the same length (gotables.go:3379-3384). -/
def sliceLoop : List UInt8 → List UInt8 → Bool
  | a :: as, b :: bs => if a ≠ b then false else sliceLoop as bs
  | _, _ => true

namespace Table

/-- The type comparison of one column in `Equals` (gotables.go:3324-3347). -/
def equalsColType (t1 t2 : Table τ) (colIndex : Nat) : Out Unit :=
  (t1.colName colIndex).bind fun colName =>
    (t1.colTypeByColIndex colIndex).bind fun type1 =>
      (t2.colType colName).bind fun type2 =>
        if type1 ≠ type2 then .err .notEqual else .ok ()

/-- The comparison of one cell in `Equals` (gotables.go:3367-3432).  Nested tables are fetched from *both* tables with the column index of
the first (gotables.go:3388-3395).  `nested` is the recursive call. -/
def equalsCell (nested : τ → τ → Out Unit) (t1 t2 : Table τ) (colIndex : Nat) (colName : GoStr) (colType : ColType) (rowIndex : Nat) :
    Out Unit :=
  (t1.getValByColIndex colIndex rowIndex).bind fun val1 =>
    (t2.getVal colName rowIndex).bind fun val2 =>
      if colType = .byteSlice ∨ colType = .uint8Slice then
        match val1, val2 with
        | .bytes s1, .bytes s2 =>
          let slice1 := s1.getD []
          let slice2 := s2.getD []
          if slice1.length ≠ slice2.length then .err .notEqual
          else if sliceLoop slice1 slice2 = false then .err .notEqual
          else .ok ()
        | _, _ => .panic
      else if colType = .table then
        (getTypedByColIndex .table t1 colIndex rowIndex).bind fun n1 =>
          (getTypedByColIndex .table t2 colIndex rowIndex).bind fun n2 =>
            match n1, n2 with
            | .tbl (some a), .tbl (some b) =>
              match nested a b with
              | .ok () => .ok ()
              | .err _ => .err .notEqual
              | .panic => .panic
            | _, _ => .err .notEqual
      else if colType = .time then
        match val1, val2 with
        | .time a, .time b => if a.sec = b.sec ∧ a.nsec = b.nsec then .ok () else .err .notEqual
        | _, _ => .panic
      else if goEq val1 val2 = false then .err .notEqual
      else .ok ()

/-- The comparison of the cells of one column in `Equals` (gotables.go:3350-3434). -/
def equalsCol (nested : τ → τ → Out Unit) (t1 t2 : Table τ) (colIndex : Nat) : Out Unit :=
  (t1.colName colIndex).bind fun colName =>
    (t1.colTypeByColIndex colIndex).bind fun colType =>
      checkEach (equalsCell nested t1 t2 colIndex colName colType) (List.range t1.rowCount)

/-- `Equals` (gotables.go:3273-3438) for non-nil tables.  `ok` is `(true, nil)`, `err` is `(false, error)`. -/
def equals (nested : τ → τ → Out Unit) (t1 t2 : Table τ) : Out Unit :=
  if t1.isNilTable = true ∧ t2.isNilTable = false then .err .notEqual
  else if t1.isNilTable = false ∧ t2.isNilTable = true then .err .notEqual
  else if t1.name ≠ t2.name then .err .notEqual
  else if t1.rowCount ≠ t2.rowCount then .err .notEqual
  else if t1.colCount ≠ t2.colCount then .err .notEqual
  else
    (checkEach (equalsColType t1 t2) (List.range t1.colCount)).bind fun _ =>
      checkEach (equalsCol nested t1 t2) (List.range t1.colCount)

end Table
end Verif
