import Verif.Spec.Order

/-!
# Specification vocabulary: merging two tables

Nothing here refers to the functions of the model.
-/

namespace Verif

variable {τ : Type}

/-- Column types whose cells can be merged. -/
def ColType.Mergeable : ColType → Bool
  | .string | .bool | .float32 | .float64 | .int | .int8 | .int16 | .int32 | .int64 | .uint | .uint8 | .uint16 | .uint32 | .uint64 => true
  | .byteSlice | .uint8Slice | .byte | .rune | .table | .time => false

/-- How much a cell tells: 0 for NaN, 1 for a zero value (the empty string, false, 0, also -0.0), 2 for any other value. -/
def Cell.weight : Cell τ → Nat
  | .f32 b => if isNaN32 b then 0 else if f32Eq b 0 then 1 else 2
  | .f64 b => if isNaN64 b then 0 else if f64Eq b 0 then 1 else 2
  | .str s => if s = [] then 1 else 2
  | .bool b => if b then 2 else 1
  | .int _ v => if v = 0 then 1 else 2
  | _ => 2

/-- What stands in a row for a column that the row's table does not have: NaN in a float column, the zero value in any other. -/
def Cell.IsMissing : ColType → Cell τ → Prop
  | .float32, c => c.HasType .float32 ∧ c.IsNaN
  | .float64, c => c.HasType .float64 ∧ c.IsNaN
  | ty, c => c.IsZero ty

/-- Row `i` of `t` and row `j` of `u` have equal cells in each of the named columns. -/
def SameKey (names : List GoStr) (t : Table τ) (i : Nat) (u : Table τ) (j : Nat) : Prop :=
  i < t.rows.length ∧ j < u.rows.length ∧ ∀ n ∈ names, ∃ a b, At t n i a ∧ At u n j b ∧ a.EqVal b

/-- Some row of `t` with the key of row `i` of `m` has the value `v` in column `n` (of type `ty`), or has no such column and `v` stands for that. -/
def Gives (names : List GoStr) (t m : Table τ) (i : Nat) (n : GoStr) (ty : ColType) (v : Cell τ) : Prop :=
  ∃ r, SameKey names m i t r ∧ (At t n r v ∨ (n ∉ t.colNames ∧ v.IsMissing ty))

/-- `v` is a correct value of the merged row `i` in column `n`: it is a value of one of the rows with this key; no such row has one that
tells more; and if a row of the first table has a value other than zero and NaN then `v` is a value of the first table. -/
def MergedCell (names : List GoStr) (t1 t2 m : Table τ) (i : Nat) (n : GoStr) (ty : ColType) (v : Cell τ) : Prop :=
  (Gives names t1 m i n ty v ∨ Gives names t2 m i n ty v) ∧
  (∀ w, Gives names t1 m i n ty w ∨ Gives names t2 m i n ty w → w.weight ≤ v.weight) ∧
  (∀ w, Gives names t1 m i n ty w → w.weight = 2 → Gives names t1 m i n ty v)

/-- What `Merge` needs of its two tables; `names` are the key columns. -/
structure MergeInput (names : List GoStr) (t1 t2 : Table τ) : Prop where
  wf1 : WF t1
  wf2 : WF t2
  rows1 : t1.rows ≠ []
  rows2 : t2.rows ≠ []
  /-- there is a key, each key column is named once … -/
  someKey : names ≠ []
  distinct : names.Nodup
  /-- … and is a sortable column of both tables without NaN -/
  key : ∀ n ∈ names, ∃ ty, HasColT t1 n ty ∧ HasColT t2 n ty ∧ ty.Sortable = true
  notNaN1 : ∀ n ∈ names, ∀ r v, At t1 n r v → ¬ v.IsNaN
  notNaN2 : ∀ n ∈ names, ∀ r v, At t2 n r v → ¬ v.IsNaN
  /-- columns of the same name have the same type -/
  shared : ∀ n ty ty', HasColT t1 n ty → HasColT t2 n ty' → ty = ty'
  /-- the names of the two temporary columns are free -/
  free1 : gs! "_TABLE_" ∉ t1.colNames ∧ gs! "_DELETE_" ∉ t1.colNames
  free2 : gs! "_TABLE_" ∉ t2.colNames ∧ gs! "_DELETE_" ∉ t2.colNames

/-- Some key occurs more than once in the rows of the two tables. -/
def SomeRepeat (names : List GoStr) (t1 t2 : Table τ) : Prop :=
  (∃ i j, SameKey names t1 i t2 j) ∨ (∃ i j, i ≠ j ∧ SameKey names t1 i t1 j) ∨ (∃ i j, i ≠ j ∧ SameKey names t2 i t2 j)

/-- The keys that `Merge` uses: those of the first table if it has any, else those of the second. -/
def mergeKeys (t1 t2 : Table τ) : List SortKey := if t1.sortKeys = [] then t2.sortKeys else t1.sortKeys

/-- Every column of the table has a type whose cells can be merged. -/
def AllMergeable (t : Table τ) : Prop := ∀ n ty, HasColT t n ty → ty.Mergeable = true

/-- `m` is the merge of `t1` and `t2` by `keys`. -/
structure IsMerge (lower : GoStr → GoStr) (keys : List SortKey) (t1 t2 m : Table τ) : Prop where
  wf : WF m
  name : m.name = gs! "Merged"
  /-- the key columns, then the others of the first table, then the others of the second -/
  cols : m.colNames = keys.map (·.colName) ++ t1.colNames.filter (fun n => n ∉ keys.map (·.colName)) ++
    t2.colNames.filter (fun n => n ∉ t1.colNames ∧ n ∉ keys.map (·.colName))
  types : ∀ n ty, HasColT m n ty ↔ HasColT t1 n ty ∨ HasColT t2 n ty
  /-- it has these keys with these directions and is sorted by them -/
  sameKeys : m.sortKeys.map (fun k => (k.colName, k.reverse)) = keys.map (fun k => (k.colName, k.reverse))
  live : KeysLive m
  sorted : SortedByKeys lower m
  /-- there is one row for each key of a row of the two tables -/
  unique : ∀ i j, SameKey (keys.map (·.colName)) m i m j → i = j
  cover1 : ∀ r, r < t1.rows.length → ∃ i, SameKey (keys.map (·.colName)) m i t1 r
  cover2 : ∀ r, r < t2.rows.length → ∃ i, SameKey (keys.map (·.colName)) m i t2 r
  /-- and its cells are chosen from the rows with this key -/
  cells : ∀ n ty i v, HasColT m n ty → At m n i v → MergedCell (keys.map (·.colName)) t1 t2 m i n ty v

/-- `m` has one row for each key of a row of `t`. -/
structure IsUnique (lower : GoStr → GoStr) (keys : List SortKey) (t m : Table τ) : Prop where
  wf : WF m
  name : m.name = t.name
  /-- the key columns, then the others -/
  cols : m.colNames = keys.map (·.colName) ++ t.colNames.filter (fun n => n ∉ keys.map (·.colName))
  types : ∀ n ty, HasColT m n ty ↔ HasColT t n ty
  sameKeys : m.sortKeys.map (fun k => (k.colName, k.reverse)) = keys.map (fun k => (k.colName, k.reverse))
  live : KeysLive m
  sorted : SortedByKeys lower m
  unique : ∀ i j, SameKey (keys.map (·.colName)) m i m j → i = j
  cover : ∀ r, r < t.rows.length → ∃ i, SameKey (keys.map (·.colName)) m i t r
  /-- each cell is that of a row with this key, and no row with this key tells more in this column -/
  cells : ∀ n i v, At m n i v → (∃ r, SameKey (keys.map (·.colName)) m i t r ∧ At t n r v) ∧
    ∀ r w, SameKey (keys.map (·.colName)) m i t r → At t n r w → w.weight ≤ v.weight

end Verif
