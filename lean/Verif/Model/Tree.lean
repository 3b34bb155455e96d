import Verif.Model.Heap
import Verif.Model.FromTable

/-!
# Walking nested tables
-/

namespace Verif

/-- A call of one of the visitor functions of `Walk`: of a table, a row, a cell (column, row). -/
inductive Event where
  | table (a : Addr)
  | row (a : Addr) (rowIndex : Nat)
  | cell (a : Addr) (colIndex rowIndex : Nat)
  deriving DecidableEq, Repr

/-- What a walk reads and changes: the tables in memory, the `walkSafe` map of visited nested tables (tree.go:62), and the variables of the
visitor functions. -/
structure WalkState (σ : Type) where
  heap : Heap
  safe : List Addr
  user : σ

variable {σ : Type}

/-- A piece of a walk. -/
abbrev WalkStep (σ : Type) := WalkState σ → WalkState σ × Out Unit

/-- One call after another; an error ends the walk. -/
def andThen (f g : WalkStep σ) : WalkStep σ := fun s =>
  match f s with
  | (s', .ok ()) => g s'
  | (s', .err e) => (s', .err e)
  | (s', .panic) => (s', .panic)

/-- Descending into a nested table (tree.go:140-186).  `depth++` and `depth--` are left out; the error does not name the tables. -/
def walkNested (walk : Addr → WalkStep σ) (a : Addr) (colIndex rowIndex : Nat) : WalkStep σ := fun s =>
  match s.heap[a]? with
  | none => (s, .panic)
  | some table =>
    match table.getTypedByColIndex .table colIndex rowIndex with
    | .err e => (s, .err e)
    | .panic => (s, .panic)
    | .ok (.tbl (some b)) =>
      match s.heap[b]? with
      | none => (s, .panic)
      | some nestedTable =>
        if nestedTable.isNilTable = false then
          if b ∈ s.safe then (s, .err .circular)
          else walk b { s with safe := b :: s.safe }
        else walk b s
    | .ok _ => (s, .err .nilTable)

/-- The body of the column loop of `Walk` (tree.go:123-187), with `GetCellInfoByColIndex` (tree.go:216-233). -/
def walkCell (visit : Event → WalkStep σ) (walkNestedTables : Bool) (walk : Addr → WalkStep σ) (a : Addr) (rowIndex colIndex : Nat) :
    WalkStep σ := fun s =>
  match s.heap[a]? with
  | none => (s, .panic)
  | some table =>
    match table.colTypes[colIndex]? with
    | none => (s, .panic)
    | some colType =>
      match table.colName colIndex with
      | .err e => (s, .err e)
      | .panic => (s, .panic)
      | .ok _ =>
        andThen (visit (.cell a colIndex rowIndex))
          (if walkNestedTables = true ∧ colType = .table then walkNested walk a colIndex rowIndex else fun s => (s, .ok ())) s

/-- The body of the row loop of `Walk` (tree.go:105-188). -/
def walkRow (visit : Event → WalkStep σ) (walkNestedTables : Bool) (walk : Addr → WalkStep σ) (a : Addr) (colCount : Nat) (rowIndex : Nat) :
    WalkStep σ :=
  andThen (visit (.row a rowIndex)) (forEach (walkCell visit walkNestedTables walk a rowIndex) (List.range colCount))

/-- `Table.Walk` (tree.go:75-194).  A visitor that is nil in Go is one that does nothing here.
Simplifications: the numbers of rows and columns are read when the loops begin (no visitor in the package changes them); the recursion
depth is bounded by `depth`, and where the bound is reached the outcome is `panic` (`C46_terminates`: it is not reached). -/
def walk (visit : Event → WalkStep σ) (walkNestedTables : Bool) : Nat → Addr → WalkStep σ
  | 0, _ => fun s => (s, .panic)
  | depth + 1, a => fun s =>
    match s.heap[a]? with
    | none => (s, .err .nilTable)
    | some table =>
      andThen (visit (.table a))
        (forEach (walkRow visit walkNestedTables (walk visit walkNestedTables depth) a table.colCount) (List.range table.rowCount)) s

/-- The visitor of `IsValidTableNesting` (tree.go:337-363): the nested table is looked up in `rootTable`, whatever table is being visited.
`user` is `refMap`.  The assignments to `err` that are overwritten (tree.go:328, 348) have no effect and are left out. -/
def visitNesting (rootTable : Addr) : Event → WalkStep (List Addr)
  | .cell a colIndex rowIndex => fun s =>
    match s.heap[a]? with
    | none => (s, .panic)
    | some table =>
      if table.colTypes[colIndex]? = some .table then
        match s.heap[rootTable]? with
        | none => (s, .panic)
        | some root =>
          match root.getTypedByColIndex .table colIndex rowIndex with
          | .err e => (s, .err e)
          | .panic => (s, .panic)
          | .ok (.tbl (some b)) =>
            if b ∈ s.user then (s, .err .circular) else ({ s with user := b :: s.user }, .ok ())
          | .ok _ => (s, .panic)
      else (s, .ok ())
  | _ => fun s => (s, .ok ())

/-- `IsValidTableNesting` (tree.go:317-374) and, negated, `HasCircularReference` (tree.go:298-312): `ok` is `(true, nil)` of the former and
`(false, nil)` of the latter, `err` is `(false, err)` and `(true, err)`. -/
def isValidTableNesting (H : Heap) (depth : Nat) (rootTable : Addr) : Out Unit :=
  (walk (visitNesting rootTable) true depth rootTable { heap := H, safe := [], user := [rootTable] }).2

/-- `Copy` (gotables.go:3666-3712) of a table in memory: the copy is a new table.  The tables made for the cells of the new rows are
overwritten by the nested tables of the original and are not modelled. -/
def copyAt (H : Heap) (depth : Nat) (a : Addr) : Heap × Out Addr :=
  match H[a]? with
  | none => (H, .err .nilTable)
  | some table =>
    match isValidTableNesting H depth a with
    | .err e => (H, .err e)
    | .panic => (H, .panic)
    | .ok () =>
      match table.copyBody (fun _ _ => 0) with
      | .err e => (H, .err e)
      | .panic => (H, .panic)
      | .ok copy => (H ++ [copy], .ok H.length)

/-- `isValidColNamesMap` (gotables.go:2854-2867): the position of each name, as the map has it (0 for a missing name). -/
def isValidColNamesMap (t : Table Addr) : Out Unit :=
  checkEach (fun i =>
    match t.colNames[i]? with
    | none => .panic
    | some n => if (t.colMap.get? n).getD 0 ≠ i then .err .other else .ok ()) (List.range t.colMap.length)

/-- `IsValidRow` (gotables.go:2707-2728). -/
def isValidRow (t : Table Addr) (rowIndex : Nat) : Out Unit :=
  match t.rows[rowIndex]? with
  | none => .err .noRow
  | some row => if row.length ≠ t.colCount then .err .other else .ok ()

/-- The result `(isValid, err)` of `IsValidTable`; a panic is `panic`. -/
inductive Validity where
  | valid
  | invalid (err : Option Err)
  | panic
  deriving DecidableEq, Repr

/-- `if …; err != nil { return false, err }`. -/
def Validity.check (o : Out Unit) (rest : Validity) : Validity :=
  match o with
  | .ok () => rest
  | .err e => .invalid (some e)
  | .panic => .panic

/-- `IsValidTable` (gotables.go:2739-2843) of the table at address `a`.  Simplifications: the slices and the map are not nil
(`newTable` makes them); column types are values of `ColType`, so `IsValidColType` accepts them. -/
def isValidTableAt (H : Heap) (depth : Nat) (a : Addr) : Validity :=
  match H[a]? with
  | none => .panic
  | some t =>
    if t.name = [] then .invalid (some .badTableName)
    else if isValidTableName t.name = false then .invalid (some .badTableName)
    else
      .check (checkEach (fun n => if isValidColName n = false then .err .badColName else .ok ()) t.colNames) <|
      if t.colTypes.length ≠ t.colNames.length then .invalid (some .other)
      else if t.colMap.length ≠ t.colNames.length then .invalid (some .other)
      else
        match isValidColNamesMap t with
        | .panic => .panic
        | .err _ => .invalid none
        | .ok () =>
          .check (checkEach (isValidRow t) (List.range t.rowCount)) <|
          .check (isValidTableNesting H depth a) <|
          .check (checkEach (fun k => if isValidColName k.colName = false then .err .badColName
            else if hasCompareFn k.colType = false then .err .badSortKey else .ok ()) t.sortKeys) .valid

/-- `SetTableByColIndex` (helpers.go:1596-1637): also sets the parent of the nested table. -/
def setTableByColIndexAt (H : Heap) (a : Addr) (colIndex rowIndex : Int) (newVal : Addr) : Heap × Out Unit :=
  match H[newVal]?, H[a]? with
  | some new, some _ =>
    let H1 := H.set newVal { new with parent := some a }
    match H1[a]? with
    | none => (H1, .panic)
    | some table =>
      match table.setTypedByColIndex .table colIndex rowIndex (.tbl (some newVal)) with
      | (table', o) => (H1.set a table', o)
  | _, _ => (H, .panic)

/-- The visitor of `CopyDeep` (tree.go:418-454).  `user` is `tableCopy`. -/
def visitCopyDeep (depth : Nat) : Event → WalkStep Addr
  | .cell a colIndex rowIndex => fun s =>
    match s.heap[a]? with
    | none => (s, .panic)
    | some table =>
      if table.colTypes[colIndex]? = some .table then
        match table.getTypedByColIndex .table colIndex rowIndex with
        | .err e => (s, .err e)
        | .panic => (s, .panic)
        | .ok (.tbl (some b)) =>
          match s.heap[b]? with
          | none => (s, .panic)
          | some nested =>
            let (H1, c) := if nested.isNilTable = true then (s.heap ++ [newNilTable], Out.ok s.heap.length) else copyAt s.heap depth b
            match c with
            | .err e => ({ s with heap := H1 }, .err e)
            | .panic => ({ s with heap := H1 }, .panic)
            | .ok nestedTableCopy =>
              match setTableByColIndexAt H1 a colIndex rowIndex nestedTableCopy with
              | (H2, .ok ()) => ({ s with heap := H2, user := a }, .ok ())
              | (H2, o) => ({ s with heap := H2 }, o)
        | .ok _ => (s, .panic)
      else ({ s with user := a }, .ok ())
  | _ => fun s => (s, .ok ())

/-- `CopyDeep` (tree.go:403-467): the memory afterwards and the address of the table returned. -/
def copyDeep (H : Heap) (depth : Nat) (a : Addr) : Heap × Out Addr :=
  match walk (visitCopyDeep depth) true depth a { heap := H, safe := [], user := a } with
  | (s, .ok ()) => (s.heap, .ok s.user)
  | (s, .err e) => (s.heap, .err e)
  | (s, .panic) => (s.heap, .panic)

end Verif
