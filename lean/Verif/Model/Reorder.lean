import Verif.Model.Core

/-!
# Reordering columns and rows
-/

namespace Verif

variable {τ : Type}

/-- Insert into an ascending list. -/
def insertInt (x : Int) : List Int → List Int
  | [] => [x]
  | y :: ys => if x ≤ y then x :: y :: ys else y :: insertInt x ys

/-- `sort.Ints`: the ascending rearrangement (it is unique, so the algorithm does not matter). -/
def sortInts : List Int → List Int
  | [] => []
  | x :: xs => insertInt x (sortInts xs)

/-- `for i := 0; i < n; i++ { if s[i] != i { return error } }` (gotables.go:4101-4106, 4181-4186), from position `i`. -/
def checkConsecutive : List Int → Int → Bool
  | [], _ => true
  | x :: xs, i => if x ≠ i then false else checkConsecutive xs (i + 1)

/-- `new[i] = old[order[i]]` for each `i` (gotables.go:4210-4232); `none` is an index panic.
Simplification: a list whose length is not the column count also counts as a panic (cannot happen on a well-formed table). -/
def permute? {α : Type} (order : List Int) (l : List α) : Option (List α) :=
  if l.length = order.length then order.mapM (fun i => goGet? l i) else none

/-- The row loop of `ReorderColsByColIndex` (gotables.go:4226-4232). -/
def permuteRows {α : Type} (order : List Int) : List (List α) → List (List α) × Out Unit
  | [] => ([], .ok ())
  | row :: rows =>
    match permute? order row with
    | none => (row :: rows, .panic)
    | some row' =>
      let (rest, o) := permuteRows order rows
      (row' :: rest, o)

/-- `table.rows[i], table.rows[j] = table.rows[j], table.rows[i]`; `none` is an index panic. -/
def swapRows? {α : Type} (l : List α) (i j : Nat) : Option (List α) :=
  match l[i]?, l[j]? with
  | some a, some b => some ((l.set i b).set j a)
  | _, _ => none

/-- The loop of `Reverse` (gotables.go:4282-4284). -/
def reverseLoop {α : Type} (l : List α) (left : Nat) (right : Int) : Option (List α) :=
  if _h : (left : Int) < right then
    match swapRows? l left right.toNat with
    | none => none
    | some l' => reverseLoop l' (left + 1) (right - 1)
  else some l
termination_by (right - left).toNat

namespace Table

/-- `ReorderColsByColIndex` (gotables.go:4161-4235). -/
def reorderColsByColIndex (t : Table τ) (order : List Int) : Table τ × Out Unit :=
  if order.length ≠ t.colCount then (t, .err .badOrder)
  else if checkConsecutive (sortInts order) 0 = false then (t, .err .badOrder)
  else
    match permute? order t.colNames with
    | none => (t, .panic)
    | some names =>
      let t1 := { t with colNames := names, colMap := reindexFrom names 0 t.colMap }
      match permute? order t1.colTypes with
      | none => (t1, .panic)
      | some types =>
        let t2 := { t1 with colTypes := types }
        let (rows, o) := permuteRows order t2.rows
        ({ t2 with rows := rows }, o)

/-- The loop translating names to indices (gotables.go:4062-4068, 4258-4264). -/
def namesToIndices (t : Table τ) : List GoStr → Out (List Int)
  | [] => .ok []
  | n :: ns =>
    (t.colIndex n).bind fun i => (namesToIndices t ns).bind fun is => .ok ((i : Int) :: is)

/-- `ReorderCols` (gotables.go:4236-4274). -/
def reorderCols (t : Table τ) (orderNames : List GoStr) : Table τ × Out Unit :=
  if orderNames.length ≠ t.colCount then (t, .err .badOrder)
  else
    match t.namesToIndices orderNames with
    | .err e => (t, .err e)
    | .panic => (t, .panic)
    | .ok order => t.reorderColsByColIndex order

/-- The inner loop of `NewTableReorderColsByColIndex` copying one column (gotables.go:4148-4150). -/
def copyColCells (src : Table τ) (oldIndex newIndex : Int) (dst : Table τ) : Table τ × Out Unit :=
  forEach (fun (ri : Nat) (dst : Table τ) =>
    match src.getCell? newIndex ri with
    | none => (dst, .panic)
    | some c =>
      match dst.setCell? oldIndex ri c with
      | none => (dst, .panic)
      | some dst' => (dst', .ok ())) (List.range src.rowCount) dst

/-- One step of the column loop of `NewTableReorderColsByColIndex` (gotables.go:4129-4151). -/
def reorderStep (nt : Nat → Nat → τ) (src : Table τ) (p : Nat × Int) (dst : Table τ) : Table τ × Out Unit :=
  match src.colName p.2 with
  | .err e => (dst, .err e)
  | .panic => (dst, .panic)
  | .ok n =>
    match src.colTypeByColIndex p.2 with
    | .err e => (dst, .err e)
    | .panic => (dst, .panic)
    | .ok ty =>
      match dst.appendCol nt n ty.name with
      | (dst', .ok ()) => copyColCells src p.1 p.2 dst'
      | r => r

/-- `NewTableReorderColsByColIndex` (gotables.go:4081-4154). -/
def newTableReorderColsByColIndex (nt : Nat → Nat → τ) (t : Table τ) (order : List Int) : Out (Table τ) :=
  if order.length ≠ t.colCount then .err .badOrder
  else if checkConsecutive (sortInts order) 0 = false then .err .badOrder
  else
    (newTable t.name).bind fun t0 =>
      match t0.appendRows nt t.rowCount with
      | (_, .err e) => .err e
      | (_, .panic) => .panic
      | (t1, .ok ()) =>
        match forEach (reorderStep nt t) ((List.range t.colCount).zip order) t1 with
        | (t2, .ok ()) => .ok t2
        | (_, .err e) => .err e
        | (_, .panic) => .panic

/-- `NewTableReorderCols` (gotables.go:4039-4079). -/
def newTableReorderCols (nt : Nat → Nat → τ) (t : Table τ) (orderNames : List GoStr) : Out (Table τ) :=
  if orderNames.length ≠ t.colCount then .err .badOrder
  else (t.namesToIndices orderNames).bind fun order => t.newTableReorderColsByColIndex nt order

/-- `Reverse` (gotables.go:4276-4287). -/
def reverse (t : Table τ) : Table τ × Out Unit :=
  match reverseLoop t.rows 0 ((t.rows.length : Int) - 1) with
  | none => (t, .panic)
  | some rows => ({ t with rows := rows }, .ok ())

/-- `rand.Shuffle(n, swap)` calls `swap(i, j)` with `n > i ≥ j ≥ 0` for `i` from `n-1` down to 1, where `j` is random.
`choose i` is the number drawn for `i`; the drawn `j` is below `i + 1`. -/
def shuffleLoop {α : Type} (choose : Nat → Nat) : Nat → List α → Option (List α)
  | 0, l => some l
  | i + 1, l =>
    match swapRows? l (i + 1) (choose (i + 1) % (i + 2)) with
    | none => none
    | some l' => shuffleLoop choose i l'

/-- `ShufflePseudorandom` (gotables.go:4294-4308) and `ShuffleRandom` (gotables.go:4314-4325), for arbitrary random choices. -/
def shuffle (choose : Nat → Nat) (t : Table τ) : Table τ × Out Unit :=
  match shuffleLoop choose (t.rows.length - 1) t.rows with
  | none => (t, .panic)
  | some rows => ({ t with rows := rows }, .ok ())

end Table
end Verif
