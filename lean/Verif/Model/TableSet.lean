import Verif.Model.Tree

/-!
# Table sets

A table set is a list of pointers to tables, so its methods work on the tables in memory.
`nil` receivers and nil tables are not modelled.
-/

namespace Verif

/-- `TableSet` (gotables.go:91-95). -/
structure TableSet where
  name : GoStr
  fileName : GoStr
  tables : List Addr
  deriving DecidableEq, Repr

/-- `NewTableSet` (gotables.go:106-111). -/
def newTableSet (tableSetName : GoStr) : TableSet := { name := tableSetName, fileName := [], tables := [] }

/-- `table.Name()` of a table in memory. -/
def nameAt (H : Heap) (a : Addr) : GoStr :=
  match H[a]? with
  | some t => t.name
  | none => []

namespace TableSet

/-- `TableCount` (gotables.go:405-413). -/
def tableCount (s : TableSet) : Nat := s.tables.length

/-- The loop of `AppendTable` (gotables.go:427-431): does a table of that name exist already? -/
def nameTaken (H : Heap) (name : GoStr) : List Addr → Bool
  | [] => false
  | existing :: rest => if nameAt H existing = name then true else nameTaken H name rest

/-- `AppendTable` (gotables.go:420-436), `Append` (gotables.go:415-417). -/
def appendTable (H : Heap) (s : TableSet) (newTable : Addr) : TableSet × Out Unit :=
  if nameTaken H (nameAt H newTable) s.tables then (s, .err .dupTable)
  else ({ s with tables := s.tables ++ [newTable] }, .ok ())

/-- `HasTable` (gotables.go:439-450). -/
def hasTable (H : Heap) (s : TableSet) (tableName : GoStr) : Out Unit :=
  if s.tables.any (fun a => nameAt H a = tableName) then .ok () else .err .noTable

/-- `GetTable` (gotables.go:452-464). -/
def getTable (H : Heap) (s : TableSet) (tableName : GoStr) : Out Addr :=
  match s.tables.find? (fun a => nameAt H a = tableName) with
  | some a => .ok a
  | none => .err .noTable

/-- `GetTableByTableIndex` (gotables.go:466-480). -/
def getTableByTableIndex (s : TableSet) (tableIndex : Int) : Out Addr :=
  if tableIndex < 0 ∨ tableIndex > (s.tableCount : Int) - 1 then .err .badTableIndex
  else
    match goGet? s.tables tableIndex with
    | some a => .ok a
    | none => .panic

/-- The loop of `TableIndex` (gotables.go:3822-3830). -/
def tableIndexLoop (H : Heap) (s : TableSet) (tableName : GoStr) : List Nat → Out Nat
  | [] => .err .noTable
  | i :: is =>
    (s.getTableByTableIndex i).bind fun a => if nameAt H a = tableName then .ok i else tableIndexLoop H s tableName is

/-- `TableIndex` (gotables.go:3817-3833). -/
def tableIndex (H : Heap) (s : TableSet) (tableName : GoStr) : Out Nat :=
  tableIndexLoop H s tableName (List.range s.tableCount)

/-- `DeleteTableByTableIndex` (gotables.go:3781-3797). -/
def deleteTableByTableIndex (s : TableSet) (tableIndex : Int) : TableSet × Out Unit :=
  if tableIndex < 0 ∨ tableIndex > (s.tableCount : Int) - 1 then (s, .err .badTableIndex)
  else ({ s with tables := s.tables.take tableIndex.toNat ++ s.tables.drop (tableIndex.toNat + 1) }, .ok ())

/-- `DeleteTable` (gotables.go:3799-3815). -/
def deleteTable (H : Heap) (s : TableSet) (tableName : GoStr) : TableSet × Out Unit :=
  match s.tableIndex H tableName with
  | .ok i => s.deleteTableByTableIndex i
  | .err e => (s, .err e)
  | .panic => (s, .panic)

/-- `RenameTable` (gotables.go:2597-2622): changes the table in memory. -/
def renameTable (H : Heap) (s : TableSet) (renameFrom renameTo : GoStr) : Heap × Out Unit :=
  match s.hasTable H renameFrom with
  | .err e => (H, .err e)
  | .panic => (H, .panic)
  | .ok () =>
    match s.hasTable H renameTo with
    | .ok () => (H, .err .dupTable)
    | .panic => (H, .panic)
    | .err _ =>
      match s.getTable H renameFrom with
      | .err e => (H, .err e)
      | .panic => (H, .panic)
      | .ok a =>
        match H[a]? with
        | none => (H, .panic)
        | some t =>
          let (t', o) := t.setName renameTo
          (H.set a t', o)

/-- One iteration of `TableSet.Copy` (gotables.go:3731-3746). -/
def copyStep (depth : Nat) (s : TableSet) (i : Nat) (st : Heap × TableSet) : (Heap × TableSet) × Out Unit :=
  match s.getTableByTableIndex i with
  | .err e => (st, .err e)
  | .panic => (st, .panic)
  | .ok a =>
    match copyAt st.1 depth a with
    | (H1, .err e) => ((H1, st.2), .err e)
    | (H1, .panic) => ((H1, st.2), .panic)
    | (H1, .ok c) =>
      let (s', o) := st.2.appendTable H1 c
      ((H1, s'), o)

/-- `TableSet.Copy` (gotables.go:3717-3750). -/
def copy (H : Heap) (depth : Nat) (s : TableSet) : Heap × Out TableSet :=
  match forEach (copyStep depth s) (List.range s.tableCount) (H, { newTableSet s.name with fileName := s.fileName }) with
  | ((H', s'), .ok ()) => (H', .ok s')
  | ((H', _), .err e) => (H', .err e)
  | ((H', _), .panic) => (H', .panic)

/-- `TableSet.Equals` (gotables.go:3998-4033).  The names of the sets are not compared. -/
def equals (H : Heap) (depth : Nat) (s1 s2 : TableSet) : Out Unit :=
  if s2.tableCount ≠ s1.tableCount then .err .notEqual
  else
    checkEach (fun (i : Nat) =>
      (s1.getTableByTableIndex i).bind fun a => (s2.getTableByTableIndex i).bind fun b => equalsAt H depth a b)
      (List.range s1.tableCount)

/-- `IsValidTableSet` (gotables.go:2869-2883). -/
def isValidTableSet (H : Heap) (depth : Nat) (s : TableSet) : Validity :=
  s.tables.foldr (fun a rest =>
    match isValidTableAt H depth a with
    | .valid => rest
    | v => v) .valid

/-- The body of the loop of `TableSet.Walk` (tree.go:44-57): every table is walked with a new `walkSafe`. -/
def walkStep {σ : Type} (visit : Event → WalkStep σ) (walkNestedTables : Bool) (depth : Nat) (s : TableSet) (i : Nat) : WalkStep σ := fun w =>
  match s.getTableByTableIndex i with
  | .err e => (w, .err e)
  | .panic => (w, .panic)
  | .ok a =>
    let (w', o) := walk visit walkNestedTables depth a { w with safe := [] }
    (w', o)

/-- `TableSet.Walk` (tree.go:24-60) after `visitTableSet`. -/
def walkTables {σ : Type} (visit : Event → WalkStep σ) (walkNestedTables : Bool) (depth : Nat) (s : TableSet) : WalkStep σ :=
  forEach (walkStep visit walkNestedTables depth s) (List.range s.tableCount)

end TableSet

/-- A call of a method of the table set that changes it. -/
inductive SetOp where
  | append (newTable : Addr)
  | rename (renameFrom renameTo : GoStr)
  | delete (tableName : GoStr)
  | deleteByIndex (tableIndex : Int)
  | setName (tableSetName : GoStr)
  | setFileName (fileName : GoStr)

/-- The memory and the table set after the call, and its outcome. -/
def SetOp.step (st : Heap × TableSet) : SetOp → (Heap × TableSet) × Out Unit
  | .append a => ((st.1, (st.2.appendTable st.1 a).1), (st.2.appendTable st.1 a).2)
  | .rename f t => (((st.2.renameTable st.1 f t).1, st.2), (st.2.renameTable st.1 f t).2)
  | .delete n => ((st.1, (st.2.deleteTable st.1 n).1), (st.2.deleteTable st.1 n).2)
  | .deleteByIndex i => ((st.1, (st.2.deleteTableByTableIndex i).1), (st.2.deleteTableByTableIndex i).2)
  | .setName n => ((st.1, { st.2 with name := n }), .ok ())
  | .setFileName n => ((st.1, { st.2 with fileName := n }), .ok ())

/-- A sequence of calls. -/
def SetOp.run (st : Heap × TableSet) (ops : List SetOp) : Heap × TableSet := ops.foldl (fun st op => (op.step st).1) st

end Verif
