import Verif.Spec.Order
import Verif.Spec.Document
import Verif.Model.History

/-!
# Specification of the calls on a plain table

A plain table is a list of columns and a list of rows (with a name, sort keys and two flags), without the lookup map.  `Does op t v t'`
says what a call may do to it: its verdict `v` and the table `t'` it leaves.  From the model only the data types and the list of calls
(`Op`) are used.
-/

namespace Verif
namespace Plain

variable {τ : Type}

/-- How a call ends: it succeeds, it returns an error, or it panics. -/
inductive Verdict where
  | done | refused | panics
  deriving DecidableEq

/-- How a call ended. -/
def verdict {α : Type} : Out α → Verdict
  | .ok _ => .done
  | .err _ => .refused
  | .panic => .panics

/-- The table without its lookup map. -/
def plain (t : Table τ) : Table τ := { t with colMap := [] }

/-! ## Ways to put calls together -/

/-- What a call may do: from a table to a verdict and a table. -/
abbrev Call (τ : Type) := Table τ → Verdict → Table τ → Prop

/-- The call leaves a table as in `good`, if there is one; otherwise it ends with `bad` and changes nothing. -/
def Try (bad : Verdict) (good : Table τ → Table τ → Prop) : Call τ := fun t v t' =>
  (v = .done ∧ good t t') ∨ (v = bad ∧ t' = t ∧ ∀ x, ¬ good t x)

/-- The call is refused, and changes nothing, unless `p` holds of the table. -/
def Only (p : Table τ → Prop) (call : Call τ) : Call τ := fun t v t' =>
  (p t ∧ call t v t') ∨ (¬ p t ∧ v = .refused ∧ t' = t)

/-- One call, and if it succeeds another one. -/
def Then (a b : Call τ) : Call τ := fun t v t' =>
  (∃ t1, a t .done t1 ∧ b t1 v t') ∨ (v ≠ .done ∧ a t v t')

/-- One call for each element, as long as they succeed. -/
def Each {ι : Type} (call : ι → Call τ) : List ι → Call τ
  | [] => fun t v t' => v = .done ∧ t' = t
  | i :: is => Then (call i) (Each call is)

/-! ## Cells -/

/-- The zero value of a column type; `x` is the table for a `*Table` column. -/
def zero (x : τ) : ColType → Cell τ
  | .string => .str []
  | .bool => .bool false
  | .float32 => .f32 0
  | .float64 => .f64 0
  | .byteSlice | .uint8Slice => .bytes (some [])
  | .table => .tbl (some x)
  | .time => .time ⟨-62135596800, 0, 0⟩
  | .byte | .uint8 => .int .uint8 0
  | .rune | .int32 => .int .int32 0
  | .uint16 => .int .uint16 0
  | .uint32 => .int .uint32 0
  | .uint64 => .int .uint64 0
  | .uint => .int .uint 0
  | .int8 => .int .int8 0
  | .int16 => .int .int16 0
  | .int64 => .int .int64 0
  | .int => .int .int 0

/-- The NaN of a floating point column type. -/
def nan : ColType → Option (Cell τ)
  | .float32 => some (.f32 0x7fc00000#32)
  | .float64 => some (.f64 0x7ff8000000000001#64)
  | _ => none

/-- Column `c` is named `n`. -/
def Named (n : GoStr) (t : Table τ) (c : Nat) : Prop := t.colNames[c]? = some n

/-- Column `c` has the index `i`. -/
def Indexed (i : Int) (_ : Table τ) (c : Nat) : Prop := i = c

/-- Put a cell, in a column that `col` describes and in row `r`, that `w` allows in a column of its type. -/
def Write (col : Table τ → Nat → Prop) (r : Int) (w : ColType → Cell τ → Prop) (t t' : Table τ) : Prop :=
  ∃ (c k : Nat) (ty : ColType) (x : Cell τ), col t c ∧ r = k ∧ t.colTypes[c]? = some ty ∧ k < t.rows.length ∧ w ty x ∧
    t' = { t with rows := t.rows.modify k (·.set c x) }

/-- Only this value, and only where it has the type of the column. -/
def Fits (x : Cell τ) (ty : ColType) (y : Cell τ) : Prop := y = x ∧ x.HasType ty

/-- As before, but not a nil slice. -/
def FitsTyped (x : Cell τ) (ty : ColType) (y : Cell τ) : Prop := y = x ∧ x.HasType ty ∧ x ≠ .bytes none

/-- Every cell of a column becomes a NaN. -/
def NaNColumn (col : Table τ → Nat → Prop) (t t' : Table τ) : Prop :=
  ∃ (c : Nat) (ty : ColType) (x : Cell τ), col t c ∧ t.colTypes[c]? = some ty ∧ nan ty = some x ∧ t' = { t with rows := t.rows.map (·.set c x) }

/-- Every cell of a column becomes zero. -/
def ZeroColumn (nt : Nat → Nat → τ) (col : Table τ → Nat → Prop) (t t' : Table τ) : Prop :=
  ∃ (c : Nat) (ty : ColType), col t c ∧ t.colTypes[c]? = some ty ∧
    t' = { t with rows := t.rows.mapIdx (fun r row => row.set c (zero (nt c r) ty)) }

/-! ## Rows and columns -/

/-- A row of zero values, as row `r`. -/
def zeros (nt : Nat → Nat → τ) (t : Table τ) (r : Nat) : List (Cell τ) := t.colTypes.mapIdx (fun c ty => zero (nt c r) ty)

/-- `k` rows of zero values at the end. -/
def MoreRows (nt : Nat → Nat → τ) (k : Nat) (t t' : Table τ) : Prop :=
  t.isNilTable = false ∧ t' = { t with rows := t.rows ++ (List.range k).map (fun j => zeros nt t (t.rows.length + j)) }

/-- A column of zero values at the end. -/
def MoreCol (nt : Nat → Nat → τ) (n : GoStr) (tyName : GoStr) (t t' : Table τ) : Prop :=
  ∃ ty : ColType, t.isNilTable = false ∧ ColName n ∧ n ∉ t.colNames ∧ tyName = ty.name ∧
    t' = { t with colNames := t.colNames ++ [n], colTypes := t.colTypes ++ [ty],
                  rows := t.rows.mapIdx (fun r row => row ++ [zero (nt t.colNames.length r) ty]) }

/-- A column less. -/
def LessCol (col : Table τ → Nat → Prop) (t t' : Table τ) : Prop :=
  ∃ c, col t c ∧ c < t.colNames.length ∧
    t' = { t with colNames := t.colNames.eraseIdx c, colTypes := t.colTypes.eraseIdx c, rows := t.rows.map (·.eraseIdx c) }

/-- A column under another name. -/
def NewColName (col : Table τ → Nat → Prop) (b : GoStr) (t t' : Table τ) : Prop :=
  ∃ c, col t c ∧ c < t.colNames.length ∧ b ∉ t.colNames ∧ ColName b ∧ t' = { t with colNames := t.colNames.set c b }

/-- The rows from `a` to `b` less. -/
def LessRows (a b : Int) (t t' : Table τ) : Prop :=
  0 ≤ a ∧ a ≤ b ∧ b < t.rows.length ∧ t' = { t with rows := t.rows.take a.toNat ++ t.rows.drop (b.toNat + 1) }

/-- The elements at the positions `σ`. -/
def at' {α : Type} (σ : List Nat) (l : List α) : List α := σ.filterMap (fun i => l[i]?)

/-- The columns in the order `σ`. -/
def Arranged (σ : List Nat) (t t' : Table τ) : Prop :=
  σ.Perm (List.range t.colNames.length) ∧
    t' = { t with colNames := at' σ t.colNames, colTypes := at' σ t.colTypes, rows := t.rows.map (at' σ) }

/-- The columns in the order of the names `ns`. -/
def ArrangedAs (ns : List GoStr) (t t' : Table τ) : Prop := ∃ σ, Arranged σ t t' ∧ t'.colNames = ns

/-! ## Sort keys -/

/-- One more key. -/
def MoreKey (n : GoStr) (t t' : Table τ) : Prop :=
  ∃ ty, HasColT t n ty ∧ ty.Sortable = true ∧ t' = { t with sortKeys := t.sortKeys ++ [⟨n, ty, false⟩] }

/-- The key `n`, wherever it occurs, becomes descending. -/
def Reversed (n : GoStr) (t t' : Table τ) : Prop :=
  (∃ k ∈ t.sortKeys, k.colName = n) ∧
    t' = { t with sortKeys := t.sortKeys.map (fun k => ⟨k.colName, k.colType, k.reverse || decide (k.colName = n)⟩) }

/-- The first key `n` less. -/
def LessKey (n : GoStr) (t t' : Table τ) : Prop :=
  n ∈ t.colNames ∧ ∃ pre k post, t.sortKeys = pre ++ k :: post ∧ k.colName = n ∧ (∀ x ∈ pre, x.colName ≠ n) ∧
    t' = { t with sortKeys := pre ++ post }

/-- The keys become the columns `ns`, ascending; if one cannot be a key, only those before it. -/
def SetKeys (ns : List GoStr) : Call τ := fun t => Each (fun n => Try .refused (MoreKey n)) ns { t with sortKeys := [] }

/-- The keys `ns` become descending, as far as they are keys. -/
def ReverseKeys (ns : List GoStr) : Call τ := Each (fun n => Try .refused (Reversed n)) ns

/-- The rows in another order, sorted if the keys are columns without NaN.  A panic is possible if some key is no column of its type. -/
def SortRows (lower : GoStr → GoStr) : Call τ := fun t v t' =>
  (v = .done ∧ (∃ rows, rows.Perm t.rows ∧ t' = { t with rows := rows }) ∧ (KeysLive t → KeysNotNaN t → SortedByKeys lower t')) ∨
  (v = .panics ∧ t' = t ∧ ¬ KeysLive t)

/-! ## Other tables -/

/-- A column of this name and type is there or is added. -/
def HaveCol (nt : Nat → Nat → τ) (col : GoStr × ColType) (t t' : Table τ) : Prop :=
  (HasColT t col.1 col.2 ∧ t' = t) ∨ MoreCol nt col.1 col.2.name t t'

/-- Copy the cell in column `c`, row `fr` of `f` to the column of the same name, row `r`. -/
def CopyCell (f : Table τ) (fr r : Int) (c : Nat) (t t' : Table τ) : Prop :=
  ∃ (n : GoStr) (k : Nat) (row : List (Cell τ)) (x : Cell τ), f.colNames[c]? = some n ∧ fr = k ∧ f.rows[k]? = some row ∧ row[c]? = some x ∧
    Write (Named n) r (Fits x) t t'

/-- Add a row of zero values and copy row `fr` of `f` to row `r`, cell by cell. -/
def CopyRow (nt : Nat → Nat → τ) (f : Table τ) (fr r : Int) : Call τ :=
  Then (Try .refused (MoreRows nt 1)) (Each (fun c => Try .refused (CopyCell f fr r c)) (List.range f.colNames.length))

/-! ## Every call -/

/-- What each call may do to a plain table. -/
def Does : Op τ → Call τ
  | .setName n => Try .refused fun t t' => ColName n ∧ t' = { t with name := n, isNilTable := false }
  | .renameTable n => Try .refused fun t t' => ColName n ∧ t' = { t with name := n, isNilTable := false }
  | .setStructShape b => Try .refused fun t t' => t' = { t with isStructShape := b }
  | .appendCol nt n ty => Try .refused (MoreCol nt n ty)
  | .deleteCol n => Try .refused (LessCol (Named n))
  | .deleteColByColIndex c => Try .refused (LessCol (Indexed c))
  | .renameCol a b => Try .refused (NewColName (Named a) b)
  | .renameColByColIndex c b => Try .refused (NewColName (Indexed c) b)
  | .appendRow nt => Try .refused (MoreRows nt 1)
  | .appendRows nt n => Only (fun _ => 0 ≤ n) (Try .refused (MoreRows nt n.toNat))
  | .deleteRow r => Try .refused (LessRows r r)
  | .deleteRows a b => Try .refused (LessRows a b)
  | .deleteRowsAll => Try .refused fun t t' => t' = { t with rows := [] }
  | .setVal n r x => Try .refused (Write (Named n) r (Fits x))
  | .setValByColIndex c r x => Try .refused (Write (Indexed c) r (Fits x))
  | .setTyped _ n r x => Try .refused (Write (Named n) r (FitsTyped x))
  | .setTypedByColIndex _ c r x => Only (fun _ => x ≠ .bytes none ∧ x ≠ .tbl none) fun t =>
      Try (if 0 ≤ c ∧ c < t.colTypes.length then .refused else .panics) (Write (Indexed c) r (Fits x)) t
  | .setCellToZeroValue nt n r => Only (n ∈ ·.colNames) (Try .panics (Write (Named n) r fun ty x => x = zero nt ty))
  | .setCellToZeroValueByColIndex nt c r => Try .panics (Write (Indexed c) r fun ty x => x = zero nt ty)
  | .setColCellsToZeroValue nt n => Try .refused (ZeroColumn nt (Named n))
  | .setColCellsToZeroValueByColIndex nt c => Try .panics fun t t' => (t.rows = [] ∧ t' = t) ∨ ZeroColumn nt (Indexed c) t t'
  | .setRowCellsToZeroValue nt r => Only (·.isNilTable = false) (Try .panics fun t t' =>
      (t.colNames = [] ∧ t' = t) ∨ ∃ k : Nat, r = k ∧ k < t.rows.length ∧ t' = { t with rows := t.rows.set k (zeros nt t k) })
  | .setFloatCellToNaN n r => Try .refused (Write (Named n) r fun ty x => nan ty = some x)
  | .setFloatCellToNaNByColIndex c r => Try .refused (Write (Indexed c) r fun ty x => nan ty = some x)
  | .setColFloatCellsToNaN n => Only (n ∈ ·.colNames) (Try .refused fun t t' => (t.rows = [] ∧ t' = t) ∨ NaNColumn (Named n) t t')
  | .setColFloatCellsToNaNByColIndex c => Try .refused fun t t' => (t.rows = [] ∧ t' = t) ∨ NaNColumn (Indexed c) t t'
  | .setRowFloatCellsToNaN r => Try .refused fun t t' =>
      ((∀ ty ∈ t.colTypes, (nan ty : Option (Cell τ)) = none) ∧ t' = t) ∨
      ∃ k : Nat, r = k ∧ k < t.rows.length ∧ t' = { t with rows := t.rows.modify k (fun row => List.zipWith (fun x ty => (nan ty).getD x) row t.colTypes) }
  | .setAllFloatCellsToNaN => Try .refused fun t t' =>
      t' = { t with rows := t.rows.map (fun row => List.zipWith (fun x ty => (nan ty).getD x) row t.colTypes) }
  | .reorderCols ns => Try .refused (ArrangedAs ns)
  | .reorderColsByColIndex order => Try .refused fun t t' => ∃ σ, order = σ.map Int.ofNat ∧ Arranged σ t t'
  | .orderColsBySortKeys => Try .panics fun t t' =>
      ArrangedAs (t.sortKeys.map (·.colName) ++ t.colNames.filter (fun n => n ∉ t.sortKeys.map (·.colName))) t t'
  | .reverse => Try .refused fun t t' => t' = { t with rows := t.rows.reverse }
  | .shuffle _ => Try .refused fun t t' => ∃ rows, rows.Perm t.rows ∧ t' = { t with rows := rows }
  | .setSortKeys ns => SetKeys ns
  | .setSortKeysReverse ns => ReverseKeys ns
  | .setSortKeysFromTable f => Only (fun _ => f.sortKeys ≠ []) (Then (SetKeys (f.sortKeys.map (·.colName)))
      (ReverseKeys ((f.sortKeys.filter (·.reverse)).map (·.colName))))
  | .appendSortKey n => Try .refused (MoreKey n)
  | .deleteSortKey n => Try .refused (LessKey n)
  | .sort _ lower ns => if ns = [] then Only (·.sortKeys ≠ []) (SortRows lower) else Then (SetKeys ns) (SortRows lower)
  | .sortSimple _ lower ns => Only (fun _ => ns ≠ []) (Then (SetKeys ns) (SortRows lower))
  | .appendColsFromTable nt f => Only (fun t => t.isNilTable = false ∧ f.isNilTable = false)
      (Each (fun col => Try .refused (HaveCol nt col)) (f.colNames.zip f.colTypes))
  | .appendRowsFromTable nt f a b => Only (fun t => t.isNilTable = false ∧ f.isNilTable = false)
      fun t => Each (fun (k : Nat) => CopyRow nt f (a + k) (t.rows.length + k)) (List.range (b - a + 1).toNat) t

/-- What a history of calls may do: the verdicts, one per call, and the table at the end.  A failing call does not end the history. -/
inductive Runs : List (Op τ) → Table τ → List Verdict → Table τ → Prop where
  | nil (t : Table τ) : Runs [] t [] t
  | cons {op : Op τ} {ops : List (Op τ)} {t t1 t' : Table τ} {v : Verdict} {vs : List Verdict} :
    Does op t v t1 → Runs ops t1 vs t' → Runs (op :: ops) t (v :: vs) t'

end Plain
end Verif
