import Verif.Model.Json
import Verif.Model.GoFloat
import Verif.Model.Tree

/-!
# Tables as maps and as YAML
-/

namespace Verif
open Table

/-- A Go value of type `interface{}` as it occurs in the maps of yaml.go: an ordinary value, a slice of values, or a map.
Simplifications: `[]interface{}`, `[][]interface{}` and `[]map[string]interface{}` are all `list` (`yaml.Unmarshal` makes only the first); a map is
the list of its entries in any order. -/
inductive GoVal where
  | val (c : Cell Addr)
  | list (l : List GoVal)
  | map (m : List (GoStr × GoVal))

/-- `m[key]`; `none` if there is no such entry. -/
def mapGet : List (GoStr × GoVal) → GoStr → Option GoVal
  | [], _ => none
  | (k, v) :: rest, key => if k = key then some v else mapGet rest key

mutual

/-- The number of maps inside each other. -/
def GoVal.depth : GoVal → Nat
  | .val _ => 0
  | .list l => depthList l
  | .map m => depthMap m + 1

def depthList : List GoVal → Nat
  | [] => 0
  | v :: l => max v.depth (depthList l)

def depthMap : List (GoStr × GoVal) → Nat
  | [] => 0
  | (_, v) :: m => max v.depth (depthMap m)

end

/-! ## Writing -/

/-- The type of a column in the metadata (yaml.go:455-460): "*Table" is written with quotes. -/
def yamlType (ty : ColType) : GoStr := if ty = .table then 34 :: ty.name ++ [34] else ty.name

/-- The variables of `getTableAsMap` (yaml.go:429-431): `yamlTable` without its entry "data", `yamlTableData`, and the index in it of `yamlTableRow`.
(The slices `yamlTable["data"]` and `yamlTableData` share their elements, and so do `yamlTableRow` and the row of `yamlTableData`: what is
assigned through one is seen through the other.) -/
structure MapState where
  table : List (GoStr × GoVal)
  data : List (List GoVal)
  row : Nat

/-- `anyVal` of `visitCell` (yaml.go:482-539), made of what the getter for the column's type gives: a nested table is made a map. -/
def mapVal (nested : Addr → Out (List (GoStr × GoVal))) (colType : ColType) (c : Cell Addr) : Out GoVal :=
  if colType = .table then
    match c with
    | .tbl (some b) => (nested b).bind fun m => .ok (.map m)
    | _ => .err .nilTable
  else .ok (.val c)

/-- `visitTable`, `visitRow` and `visitCell` of `getTableAsMap` (yaml.go:433-543).  `nested` is the recursive call. -/
def visitMap (nested : Addr → Out (List (GoStr × GoVal))) : Event → WalkStep MapState
  | .table a => fun s =>
    match s.heap[a]? with
    | none => (s, .panic)
    | some t => ({ s with user :=
      { table := [(gs! "tableName", .val (.str t.name))] ++ (if t.isStructShape then [(gs! "isStructShape", .val (.bool true))] else []) ++
          [(gs! "metadata", .list ((t.colNames.zip t.colTypes).map fun (n, ty) => .map [(n, .val (.str (yamlType ty)))]))]
        data := List.replicate t.rows.length []
        row := 0 } }, .ok ())
  | .row a rowIndex => fun s =>
    match s.heap[a]? with
    | none => (s, .panic)
    | some t =>
      if rowIndex < s.user.data.length then
        ({ s with user := { s.user with data := s.user.data.set rowIndex (List.replicate t.colNames.length (.val .nil)), row := rowIndex } }, .ok ())
      else (s, .panic)
  | .cell a colIndex rowIndex => fun s =>
    match s.heap[a]? with
    | none => (s, .panic)
    | some t =>
      match t.colTypes[colIndex]? with
      | none => (s, .panic)
      | some colType =>
        match (t.getTypedByColIndex colType colIndex rowIndex).bind (mapVal nested colType) with
        | .err e => (s, .err e)
        | .panic => (s, .panic)
        | .ok v =>
          match s.user.data[s.user.row]? with
          | none => (s, .panic)
          | some yamlTableRow =>
            if colIndex < yamlTableRow.length then
              ({ s with user := { s.user with data := s.user.data.set s.user.row (yamlTableRow.set colIndex v) } }, .ok ())
            else (s, .panic)

/-- `getTableAsMap` (yaml.go:427-556).  The walk does not descend into nested tables; `visitCell` calls `getTableAsMap` for them.  The recursion depth is
bounded by `depth`, and where the bound is reached the outcome is `panic` (in Go the stack overflows if there is no end to it). -/
def getTableAsMap (H : Heap) : Nat → Addr → Out (List (GoStr × GoVal))
  | 0, _ => .panic
  | depth + 1, a =>
    match walk (visitMap (getTableAsMap H depth)) false 1 a { heap := H, safe := [], user := ⟨[], [], 0⟩ } with
    | (s, .ok ()) => .ok (s.user.table ++ [(gs! "data", .list (s.user.data.map .list))])
    | (_, .err e) => .err e
    | (_, .panic) => .panic

/-- The loop over the tables (yaml.go:404-419). -/
def tableMaps (H : Heap) (depth : Nat) : List Addr → Out (List GoVal)
  | [] => .ok []
  | a :: rest => (getTableAsMap H depth a).bind fun m => (tableMaps H depth rest).bind fun ms => .ok (.map m :: ms)

/-- `GetTableSetAsMap` (yaml.go:394-425). -/
def getTableSetAsMap (H : Heap) (depth : Nat) (s : TableSet) : Out (List (GoStr × GoVal)) :=
  (tableMaps H depth s.tables).bind fun ms => .ok [(gs! "tableSetName", .val (.str s.name)), (gs! "tables", .list ms)]

/-- The library gopkg.in/yaml.v3: `Marshal` and `Unmarshal` into a `map[string]interface{}`; `none` is an error.  `Doc` is the type of texts, `empty` the empty one. -/
structure YamlLib (Doc : Type) where
  empty : Doc
  isEmpty : Doc → Bool
  marshal : List (GoStr × GoVal) → Option Doc
  unmarshal : Doc → Option (List (GoStr × GoVal))

variable {Doc : Type}

/-- `GetTableSetAsYAML` (yaml.go:371-392): an error of `GetTableSetAsMap` or `Marshal` gives the empty text, and no error. -/
def getTableSetAsYAML (Y : YamlLib Doc) (H : Heap) (depth : Nat) (s : TableSet) : Out Doc :=
  match getTableSetAsMap H depth s with
  | .panic => .panic
  | .err _ => .ok Y.empty
  | .ok yamlMap =>
    match Y.marshal yamlMap with
    | none => .ok Y.empty
    | some d => .ok d

/-! ## Reading -/

/-- `trimQuote` (yaml.go:594-604). -/
def trimQuote (s : GoStr) : GoStr :=
  let s := match s with
    | 34 :: rest => rest
    | _ => s
  if s.getLast? = some 34 then s.dropLast else s

/-- Conversion of an integer to an integer type: it wraps around. -/
def IntKind.wrap (k : IntKind) (v : Int) : Int := k.lo + (v - k.lo) % (k.hi - k.lo + 1)

/-- The integer type that an `int` is converted to (yaml.go:205-232). -/
def ColType.yamlInt? : ColType → Option IntKind
  | .rune => some .int32
  | ty => ty.jsonInt?

/-- Case `int` (yaml.go:202-249): the value to set.  Setting a time panics.  The conversion to `float32` gives the nearest one, as does the
parsing of the decimal digits. -/
def yamlIntCell (colType : ColType) (intVal : Int) : Out (Cell Addr) :=
  match colType with
  | .float32 => .ok (.f32 ((goFloat.parse32 (fmtInt intVal)).getD 0))
  | .time => .panic
  | ty =>
    match ty.yamlInt? with
    | some k => .ok (.int k (k.wrap intVal))
    | none => .err .typeMismatch

/-- The bytes of a slice (yaml.go:316-323): an element that is not an `int` panics. -/
def yamlBytes : List GoVal → Out (List UInt8)
  | [] => .ok []
  | .val (.int .int v) :: rest => (yamlBytes rest).bind fun bs => .ok (UInt8.ofNat (IntKind.uint8.wrap v).toNat :: bs)
  | _ :: _ => .panic

/-- Case `interface{}` (yaml.go:277-339): values of none of the types before it.  A type assertion that fails panics. -/
def readYamlOther (nested : Heap → List (GoStr × GoVal) → Out (Heap × Addr)) (a : Addr) (rowIndex colIndex : Nat) (H : Heap) (colType : ColType) (val : GoVal) : Out Heap :=
  match colType with
  | .byte => .panic
  | .uint =>
    match val with
    | .val (.int .uint64 v) => setTypedAt H a .uint colIndex rowIndex (.int .uint v)
    | _ => .panic
  | .uint16 =>
    match val with
    | .val (.int .uint16 v) => setTypedAt H a .uint16 colIndex rowIndex (.int .uint16 v)
    | _ => .panic
  | .uint32 =>
    match val with
    | .val (.int .uint32 v) => setTypedAt H a .uint32 colIndex rowIndex (.int .uint32 v)
    | _ => .panic
  | .uint64 =>
    match val with
    | .val (.int .uint64 v) => setTypedAt H a .uint64 colIndex rowIndex (.int .uint64 v)
    | _ => .panic
  | .int8 =>
    match val with
    | .val (.int .int8 v) => setTypedAt H a .int8 colIndex rowIndex (.int .int8 v)
    | _ => .panic
  | .int16 =>
    match val with
    | .val (.int .int16 v) => setTypedAt H a .int16 colIndex rowIndex (.int .int16 v)
    | _ => .panic
  | .int64 =>
    match val with
    | .val (.int .int64 v) => setTypedAt H a .int64 colIndex rowIndex (.int .int64 v)
    | _ => .panic
  | .table =>
    match val with
    | .map m =>
      (nested H m).bind fun (H1, b) =>
        match setTableByColIndexAt H1 a colIndex rowIndex b with
        | (H2, .ok ()) => .ok H2
        | (_, .err e) => .err e
        | (_, .panic) => .panic
    | _ => .panic
  | .byteSlice | .uint8Slice =>
    match val with
    | .val (.bytes b) => setTypedAt H a colType colIndex rowIndex (.bytes b)
    | .list l => (yamlBytes l).bind fun bs => setTypedAt H a colType colIndex rowIndex (.bytes (some bs))
    | _ => setTypedAt H a colType colIndex rowIndex (.bytes none)
  | _ => .err .typeMismatch

/-- The switch over a cell (yaml.go:199-360). -/
def readYamlCell (nested : Heap → List (GoStr × GoVal) → Out (Heap × Addr)) (a : Addr) (rowIndex colIndex : Nat) (H : Heap) (val : GoVal) : Out Heap :=
  match H[a]? with
  | none => .panic
  | some table =>
    match val with
    | .val (.int .uint v) => setTypedAt H a .uint colIndex rowIndex (.int .uint v)
    | .val (.int .int intVal) =>
      match table.colTypes[colIndex]? with
      | none => .panic
      | some colType => (yamlIntCell colType intVal).bind fun c => setTypedAt H a colType colIndex rowIndex c
    | .val (.f32 b) => setTypedAt H a .float32 colIndex rowIndex (.f32 b)
    | .val (.f64 b) =>
      match table.colTypes[colIndex]? with
      | none => .panic
      | some .float32 => setTypedAt H a .float32 colIndex rowIndex (.f32 (f64To32 b))
      | some .float64 => setTypedAt H a .float64 colIndex rowIndex (.f64 b)
      | some _ => .err .typeMismatch
    | .val (.int .uint8 v) => setTypedAt H a .byte colIndex rowIndex (.int .uint8 v)
    | .val (.int .int32 v) => setTypedAt H a .rune colIndex rowIndex (.int .int32 v)
    | .val (.str s) => setTypedAt H a .string colIndex rowIndex (.str s)
    | .val (.bool b) => setTypedAt H a .bool colIndex rowIndex (.bool b)
    | .val (.time t) => setTypedAt H a .time colIndex rowIndex (.time t)
    | .val .nil =>
      match table.colTypes[colIndex]? with
      | none => .panic
      | some _ => .err .typeMismatch
    | val =>
      match table.colTypes[colIndex]? with
      | none => .panic
      | some colType => readYamlOther nested a rowIndex colIndex H colType val

/-- The rows of "data" (yaml.go:157-178): an element that is not a slice panics; anything but a slice counts as no rows. -/
def yamlRows : List GoVal → Option (List (List GoVal))
  | [] => some []
  | .list cells :: rest => (yamlRows rest).map fun rows => cells :: rows
  | _ :: _ => none

/-- The loop over the cells of a row (yaml.go:198-365). -/
def readYamlRow (nested : Heap → List (GoStr × GoVal) → Out (Heap × Addr)) (a : Addr) (rowIndex : Nat) (H : Heap) (row : List GoVal) : Out Heap :=
  foldOut (fun H (colIndex, val) => readYamlCell nested a rowIndex colIndex H val) H ((List.range row.length).zip row)

/-- The loop over the rows (yaml.go:191-366). -/
def readYamlRows (nested : Heap → List (GoStr × GoVal) → Out (Heap × Addr)) (a : Addr) (H : Heap) (data : List (List GoVal)) : Out Heap :=
  foldOut (fun H (rowIndex, row) => (appendRowAt H a).bind fun H1 => readYamlRow nested a rowIndex H1 row) H ((List.range data.length).zip data)

/-- The loop over the metadata (yaml.go:133-151): of several entries of a map, the last one met counts; an element that is not a map panics. -/
def readYamlCols (a : Addr) (H : Heap) (metadata : List GoVal) : Out Heap :=
  foldOut (fun H colNameAndType =>
    match colNameAndType with
    | .map m =>
      match m.getLast? with
      | some (colName, .val (.str colType)) => appendColAt H a colName (trimQuote colType)
      | _ => .err .other
    | _ => .panic) H metadata

/-- `newTableFromYAML_recursive` (yaml.go:87-369): the memory afterwards and the address of the new table.  The recursion depth is bounded by `depth`, and
where the bound is reached the outcome is `panic`; `newTableSetFromYAML` gives a bound that is not reached. -/
def readYamlTable : Nat → Heap → List (GoStr × GoVal) → Out (Heap × Addr)
  | 0, _, _ => .panic
  | depth + 1, H, tableMap =>
    match mapGet tableMap (gs! "tableName") with
    | some (.val (.str tableName)) =>
      if tableName.length > 0 then
        match (newTable tableName : Out (Table Addr)) with
        | .err e => .err e
        | .panic => .panic
        | .ok table =>
          let table :=
            match mapGet tableMap (gs! "isStructShape") with
            | some (.val (.bool b)) => { table with isStructShape := b }
            | _ => table
          let a := H.length
          match mapGet tableMap (gs! "metadata") with
          | some (.list metadata) =>
            (readYamlCols a (H ++ [table]) metadata).bind fun H1 =>
              match mapGet tableMap (gs! "data") with
              | some (.list data) =>
                match yamlRows data with
                | none => .panic
                | some rows => (readYamlRows (readYamlTable depth) a H1 rows).bind fun H2 => .ok (H2, a)
              | _ => .ok (H1, a)
          | _ => .err .other
      else .ok (H ++ [newNilTable], H.length)
    | _ => .err .other

/-- The loop over the tables (yaml.go:68-82): an element that is not a map panics. -/
def readYamlTables (depth : Nat) (st : Heap × TableSet) (tables : List GoVal) : Out (Heap × TableSet) :=
  foldOut (fun (H, s) v =>
    match v with
    | .map m =>
      (readYamlTable depth H m).bind fun (H1, a) =>
        match s.appendTable H1 a with
        | (s', .ok ()) => .ok (H1, s')
        | (_, .err e) => .err e
        | (_, .panic) => .panic
    | _ => .panic) st tables

/-- What `NewTableSetFromYAML` does with the unmarshalled map (yaml.go:43-84): where "tables" is missing, the type assertion panics before it is found missing. -/
def readYamlSet (H : Heap) (tableSetMap : List (GoStr × GoVal)) : Out (Heap × TableSet) :=
  match mapGet tableSetMap (gs! "tableSetName") with
  | some (.val (.str tableSetName)) =>
    match mapGet tableSetMap (gs! "tables") with
    | some (.list tables) => readYamlTables (depthMap tableSetMap + 1) (H, newTableSet tableSetName) tables
    | _ => .panic
  | _ => .err .other

/-- `NewTableSetFromYAML` (yaml.go:16-85). -/
def newTableSetFromYAML (Y : YamlLib Doc) (H : Heap) (s : Doc) : Out (Heap × TableSet) :=
  if Y.isEmpty s then .err .other
  else
    match Y.unmarshal s with
    | none => .err .syntaxErr
    | some tableSetMap => readYamlSet H tableSetMap

end Verif
