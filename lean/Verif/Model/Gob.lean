import Verif.Model.TableSet

/-!
# Gob export and import

The bytes are made and read by the library package `encoding/gob`, which is not modelled: it is a parameter, `Gob`.
-/

namespace Verif
open Table

/-- `SortKeyExported` (sort.go:63-68), without the function, which `encoding/gob` leaves out. -/
structure SortKeyExported where
  colName : GoStr
  colType : GoStr
  reverse : Bool
  deriving DecidableEq, Repr

/-- `TableExported` (gotables.go:504-514), without `IsNilTable` and `ParentTable`, which are never assigned. -/
structure TableExported where
  tableName : GoStr
  colNames : List GoStr
  colTypes : List GoStr
  colNamesMap : GoMap
  rows : List (List (Cell Addr))
  sortKeys : List SortKeyExported
  structShape : Bool
  deriving DecidableEq, Repr

/-- `TableSetExported` (gotables.go:100-103). -/
structure TableSetExported where
  tableSetName : GoStr
  fileName : GoStr
  deriving DecidableEq, Repr

/-- The encoder and the decoder of `encoding/gob` for these two types; `B` stands for the encoded bytes. -/
structure Gob (B : Type) where
  encTable : TableExported → Out B
  decTable : B → Out TableExported
  encHeader : TableSetExported → Out B
  decHeader : B → Out TableSetExported

/-- The loop over the sort keys of `exportTable` (gob.go:71-78): assigns to element `keyIndex` of the slice made. -/
def exportKeys : Nat → List SortKey → List SortKeyExported → Out (List SortKeyExported)
  | _, [], exported => .ok exported
  | keyIndex, k :: keys, exported =>
    match goSet? exported keyIndex { colName := k.colName, colType := k.colType.name, reverse := k.reverse } with
    | none => .panic
    | some exported' => exportKeys (keyIndex + 1) keys exported'

/-- `exportTable` (gob.go:10-83) and `newTableExported` (gotables.go:603-615, 2565-2578).  `copy` of the types copies as many as there are
names; with fewer types than names it is an error. -/
def exportTable (t : Table Addr) : Out TableExported :=
  if t.name = [] then .err .badTableName
  else if isValidTableName t.name = false then .err .badTableName
  else if t.colTypes.length < t.colCount then .err .other
  else
    (exportKeys 0 t.sortKeys []).bind fun keys =>
    .ok { tableName := t.name, colNames := t.colNames, colTypes := (t.colTypes.take t.colCount).map ColType.name, colNamesMap := t.colMap,
          rows := t.rows, sortKeys := keys, structShape := t.isStructShape }

/-- The column types by name, as `IsValidColType` accepts them (gotables.go:2788-2793). -/
def importTypes : List GoStr → Option (List ColType)
  | [] => some []
  | s :: rest =>
    match ColType.ofName? s, importTypes rest with
    | some ty, some tys => some (ty :: tys)
    | _, _ => none

/-- `importTable` (gob.go:86-151): the table made is a new one in memory; `none` is a nil table returned without an error.  The loop over the sort keys
(gob.go:134-141) goes over the empty slice just made.  Simplifications: an unknown type is an error before the rest of `IsValidTable` is
checked and not in its course (it is an error either way); the decoded `tableExported` is not nil. -/
def importTable (H : Heap) (depth : Nat) (x : TableExported) : Heap × Out (Option Addr) :=
  match (newTable x.tableName : Out (Table Addr)) with
  | .err e => (H, .err e)
  | .panic => (H, .panic)
  | .ok table =>
    if x.colTypes.length < x.colNames.length then (H, .err .other)
    else
      match importTypes (x.colTypes.take x.colNames.length) with
      | none => (H, .err .badColType)
      | some types =>
        let table := { table with
          colNames := x.colNames, colTypes := types, colMap := x.colNamesMap, rows := x.rows, sortKeys := [], isStructShape := x.structShape }
        let H1 := H ++ [table]
        match isValidTableAt H1 depth H.length with
        | .panic => (H1, .panic)
        | .invalid (some e) => (H1, .err e)
        | .invalid none => (H1, .ok none)
        | .valid => (H1, .ok (some H.length))

variable {B : Type}

/-- `Table.GobEncode` (gob.go:156-178). -/
def gobEncode (G : Gob B) (t : Table Addr) : Out B :=
  (exportTable t).bind G.encTable

/-- `GobDecodeTable` and `NewTableFromGob` (gob.go:296-326). -/
def gobDecodeTable (G : Gob B) (H : Heap) (depth : Nat) (buf : B) : Heap × Out (Option Addr) :=
  match G.decTable buf with
  | .err e => (H, .err e)
  | .panic => (H, .panic)
  | .ok x => importTable H depth x

/-- The loop of `TableSet.GobEncode` (gob.go:194-212). -/
def gobEncodeTables (G : Gob B) (H : Heap) : List Addr → Out (List B)
  | [] => .ok []
  | a :: rest =>
    match H[a]? with
    | none => .err .nilTable
    | some t => (gobEncode G t).bind fun b => (gobEncodeTables G H rest).bind fun bs => .ok (b :: bs)

/-- `TableSet.GobEncode` (gob.go:183-229): one buffer for each table and one at the end for the names of the set and its file. -/
def gobEncodeSet (G : Gob B) (H : Heap) (s : TableSet) : Out (List B) :=
  (gobEncodeTables G H s.tables).bind fun bs =>
  (G.encHeader { tableSetName := s.name, fileName := s.fileName }).bind fun h => .ok (bs ++ [h])

/-- The body of the loop of `GobDecodeTableSet` (gob.go:263-272).  A nil table that was decoded without an error ends the loop here, where in Go it would be appended. -/
def gobDecodeStep (G : Gob B) (depth : Nat) (buf : B) (st : Heap × TableSet) : (Heap × TableSet) × Out Unit :=
  match gobDecodeTable G st.1 depth buf with
  | (H1, .err e) => ((H1, st.2), .err e)
  | (H1, .panic) => ((H1, st.2), .panic)
  | (H1, .ok none) => ((H1, st.2), .err .nilTable)
  | (H1, .ok (some a)) =>
    let (s', o) := st.2.appendTable H1 a
    ((H1, s'), o)

/-- `GobDecodeTableSet` and `NewTableSetFromGob` (gob.go:240-287). -/
def gobDecodeTableSet (G : Gob B) (H : Heap) (depth : Nat) (buffer : List B) : Heap × Out TableSet :=
  match forEach (gobDecodeStep G depth) (buffer.take (buffer.length - 1)) (H, newTableSet []) with
  | ((H1, _), .err e) => (H1, .err e)
  | ((H1, _), .panic) => (H1, .panic)
  | ((H1, s), .ok ()) =>
    match goGet? buffer ((buffer.length : Int) - 1) with
    | none => (H1, .panic)
    | some encodedHeader =>
      match G.decHeader encodedHeader with
      | .err e => (H1, .err e)
      | .panic => (H1, .panic)
      | .ok h => (H1, .ok { s with name := h.tableSetName, fileName := h.fileName })

end Verif
