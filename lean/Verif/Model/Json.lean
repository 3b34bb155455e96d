import Verif.Go.Json
import Verif.Go.FloatCast
import Verif.Model.Csv

/-!
# Tables as JSON
-/

namespace Verif
open Table

/-! ## Writing -/

/-- `replaceSpaces.ReplaceAllString(valStr, ",")` (json.go:21, 181). -/
def spacesToCommas (s : GoStr) : GoStr := s.map fun c => if c = 32 then 44 else c

/-- The switch over the value of a cell (json.go:143-228).  `refs` is `refMap`; `nested` writes a nested table.  Simplification: the message written for an `int32` in a
column that is neither `int32` nor `rune` (json.go:168-170; a well-formed table has none) is the empty text here. -/
def jsonCell (P : PrintEnv) (H : Heap) (nested : List Addr → Addr → Out (GoStr × List Addr)) (refs : List Addr) (t : Table Addr) (rowIndex colIndex : Nat) :
    Out (GoStr × List Addr) :=
  (t.getValByColIndex colIndex rowIndex).bind fun val =>
  match val with
  | .str s => .ok (strconvQuote P.printable s, refs)
  | .int .int32 _ =>
    (t.getValAsStringByColIndex P H colIndex rowIndex).bind fun valStr =>
    match goGet? t.colTypes colIndex with
    | none => .panic
    | some .int32 => .ok (valStr, refs)
    | some .rune => .ok (strconvQuote P.printable valStr, refs)
    | some _ => .ok ([], refs)
  | .bool _ | .int _ _ | .f32 _ | .f64 _ => (t.getValAsStringByColIndex P H colIndex rowIndex).bind fun valStr => .ok (valStr, refs)
  | .bytes _ => (t.getValAsStringByColIndex P H colIndex rowIndex).bind fun valStr => .ok (spacesToCommas valStr, refs)
  | .tbl _ =>
    (t.getTypedByColIndex .table colIndex rowIndex).bind fun c =>
    match c with
    | .tbl (some b) =>
      if b ∈ refs then .err .circular
      else
        match H[b]? with
        | none => .err .nilTable
        | some nestedTable =>
          if nestedTable.isNilTable then .ok (gs! "null", refs)
          else (nested refs b).bind fun (s, refs') => .ok (123 :: s ++ [125], refs')
    | _ => .err .nilTable
  | .time v => .ok (34 :: P.fmtTime v ++ [34], refs)
  | .nil => .ok (gs! "\"TYPE UNKNOWN\"", refs)

/-- The loop over the columns (json.go:134-234): the texts between the commas. -/
def jsonCells (P : PrintEnv) (H : Heap) (nested : List Addr → Addr → Out (GoStr × List Addr)) (t : Table Addr) (rowIndex : Nat) :
    List Addr → List (Nat × GoStr) → Out (List GoStr × List Addr)
  | refs, [] => .ok ([], refs)
  | refs, (colIndex, colName) :: rest =>
    (jsonCell P H nested refs t rowIndex colIndex).bind fun (s, refs1) =>
    (jsonCells P H nested t rowIndex refs1 rest).bind fun (ss, refs2) =>
    .ok ((123 :: strconvQuote P.printable colName ++ 58 :: s ++ [125]) :: ss, refs2)

/-- The loop over the rows (json.go:132-239). -/
def jsonRows (P : PrintEnv) (H : Heap) (nested : List Addr → Addr → Out (GoStr × List Addr)) (t : Table Addr) :
    List Addr → List Nat → Out (List GoStr × List Addr)
  | refs, [] => .ok ([], refs)
  | refs, rowIndex :: rest =>
    (jsonCells P H nested t rowIndex refs ((List.range t.colNames.length).zip t.colNames)).bind fun (ss, refs1) =>
    (jsonRows P H nested t refs1 rest).bind fun (rows, refs2) =>
    .ok ((91 :: joinSep [44] ss ++ [93]) :: rows, refs2)

/-- `getTableAsJSON_recursive` (json.go:93-242): the text and `refMap` afterwards.  Simplifications: there are as many types as names; the recursion depth is
bounded by `depth`, and where the bound is reached the outcome is `panic`. -/
def jsonTable (P : PrintEnv) (H : Heap) : Nat → List Addr → Addr → Out (GoStr × List Addr)
  | 0, _, _ => .panic
  | depth + 1, refs, a =>
    match H[a]? with
    | none => .err .nilTable
    | some t =>
      (jsonRows P H (jsonTable P H depth) t (a :: refs) (List.range t.rows.length)).bind fun (rows, refs') =>
      .ok (gs! "\"tableName\":" ++ strconvQuote P.printable t.name ++ gs! "," ++
        (if t.isStructShape then gs! "\"isStructShape\":true," else []) ++
        gs! "\"metadata\":[" ++ joinSep [44] ((t.colNames.zip t.colTypes).map fun (n, ty) => gs! "{\"" ++ n ++ gs! "\":\"" ++ ty.name ++ gs! "\"}") ++ gs! "]," ++
        gs! "\"data\":[" ++ joinSep [44] rows ++ gs! "]", refs')

/-- `getTableAsJSON_private` (json.go:68-91). -/
def jsonTablePrivate (P : PrintEnv) (H : Heap) (depth : Nat) (a : Addr) : Out GoStr :=
  (jsonTable P H depth [] a).bind fun (s, _) => .ok (123 :: s ++ [125])

/-- The loop over the tables (json.go:537-556). -/
def jsonTables (P : PrintEnv) (H : Heap) (depth : Nat) : List Addr → Out (List GoStr)
  | [] => .ok []
  | a :: rest => (jsonTablePrivate P H depth a).bind fun s => (jsonTables P H depth rest).bind fun ss => .ok (s :: ss)

/-- `GetTableSetAsJSON` (json.go:524-564). -/
def getTableSetAsJSON (P : PrintEnv) (H : Heap) (depth : Nat) (s : TableSet) : Out GoStr :=
  (jsonTables P H depth s.tables).bind fun ss =>
  .ok (gs! "{\"tableSetName\":" ++ strconvQuote P.printable s.name ++ gs! ",\"tables\":[" ++ joinSep [44] ss ++ gs! "]}")

/-- `GetTableAsJSON` (json.go:43-66). -/
def getTableAsJSON (P : PrintEnv) (H : Heap) (depth : Nat) (a : Addr) : Out GoStr :=
  match (newTableSet []).appendTable H a with
  | (s, .ok ()) => getTableSetAsJSON P H depth s
  | (_, .err e) => .err e
  | (_, .panic) => .panic

/-! ## Reading -/

/-- Library functions used by the reader. -/
structure JsonEnv where
  /-- strconv's conversion of floats, and the parsing of times -/
  text : TextEnv
  /-- the conversion to an integer of a float whose whole part the integer type cannot represent ("the behavior is implementation-dependent") -/
  cast : IntKind → BitVec 64 → Int

/-- `for i, x := range l`, where the body can fail. -/
def foldOut {α σ : Type} (f : σ → α → Out σ) : σ → List α → Out σ
  | s, [] => .ok s
  | s, x :: xs => (f s x).bind fun s' => foldOut f s' xs

/-- The entries of the map that the members of an object make: of two with the same key, the later one.  (Go goes over them in any order; the order matters only if there are several.) -/
def jsonEntries : List (GoStr × JVal) → List (GoStr × JVal)
  | [] => []
  | (k, v) :: rest => if rest.any (fun p => p.1 = k) then jsonEntries rest else (k, v) :: jsonEntries rest

/-- A `Set<type>ByColIndex` call for a table in memory. -/
def setTypedAt (H : Heap) (a : Addr) (valType : ColType) (colIndex rowIndex : Nat) (val : Cell Addr) : Out Heap :=
  match H[a]? with
  | none => .panic
  | some t =>
    match t.setTypedByColIndex valType colIndex rowIndex val with
    | (t', .ok ()) => .ok (H.set a t')
    | (_, .err e) => .err e
    | (_, .panic) => .panic

/-- The integer type converted to (`int64(float64Val)` …, json.go:404-434): `rune` is not among them. -/
def ColType.jsonInt? : ColType → Option IntKind
  | .int => some .int
  | .int8 => some .int8
  | .int16 => some .int16
  | .int32 => some .int32
  | .int64 => some .int64
  | .uint => some .uint
  | .uint8 => some .uint8
  | .byte => some .uint8
  | .uint16 => some .uint16
  | .uint32 => some .uint32
  | .uint64 => some .uint64
  | _ => none

/-- Conversion of a `float64` to an integer type. -/
def castInt (E : JsonEnv) (k : IntKind) (x : BitVec 64) : Int :=
  match f64Trunc x with
  | some v => if k.lo ≤ v ∧ v ≤ k.hi then v else E.cast k x
  | none => E.cast k x

/-- The conversion of a number to the type of its column (json.go:404-434); `none` is the error of the default case. -/
def jsonNumCell (E : JsonEnv) (colType : ColType) (x : BitVec 64) : Option (Cell Addr) :=
  match colType with
  | .float64 => some (.f64 x)
  | .float32 => some (.f32 (f64To32 x))
  | ty => ty.jsonInt?.map fun k => .int k (castInt E k x)

/-- The bytes of a slice (json.go:443-454): an element that is not a number panics. -/
def jsonBytes (E : JsonEnv) : List JVal → Out (List UInt8)
  | [] => .ok []
  | .num text :: rest =>
    match E.text.float.parse64 text with
    | none => .err .badRange
    | some x => (jsonBytes E rest).bind fun bs => .ok (UInt8.ofNat (castInt E .uint8 x).toNat :: bs)
  | _ :: _ => .panic

/-- `[]rune(s)[0]`; `none` is the run-time panic. -/
def firstRune (s : GoStr) : Option Nat :=
  match s with
  | [] => none
  | _ => some (match decodeRune? s with | some (r, _) => r | none => 0xFFFD)

/-- The switch over a cell (json.go:357-494). -/
def readJsonCell (E : JsonEnv) (nested : Heap → List (GoStr × JVal) → Out (Heap × Addr)) (a : Addr) (rowIndex colIndex : Nat) (H : Heap) (cell : JVal) : Out Heap :=
  match H[a]? with
  | none => .panic
  | some table =>
    match table.colTypes[colIndex]? with
    | none => .panic
    | some colType =>
      match cell with
      | .str s =>
        match colType with
        | .rune =>
          match firstRune s with
          | none => .panic
          | some r => setTypedAt H a .rune colIndex rowIndex (.int .int32 r)
        | .time =>
          match E.text.parseTime s with
          | none => .err .syntaxErr
          | some v => setTypedAt H a .time colIndex rowIndex (.time v)
        | .string => setTypedAt H a .string colIndex rowIndex (.str s)
        | _ => .err .typeMismatch
      | .num text =>
        match E.text.float.parse64 text with
        | none => .err .badRange
        | some x =>
          match jsonNumCell E colType x with
          | none => .err .typeMismatch
          | some c => setTypedAt H a colType colIndex rowIndex c
      | .bool b => setTypedAt H a .bool colIndex rowIndex (.bool b)
      | .arr l => (jsonBytes E l).bind fun bs => setTypedAt H a .byteSlice colIndex rowIndex (.bytes (some bs))
      | .obj m =>
        if colType = .table then
          (nested H m).bind fun (H1, b) =>
            match setTableByColIndexAt H1 a colIndex rowIndex b with
            | (H2, .ok ()) => .ok H2
            | (_, .err e) => .err e
            | (_, .panic) => .panic
        else .err .typeMismatch
      | .null =>
        if colType = .table then
          match setTableByColIndexAt (H ++ [newNilTable]) a colIndex rowIndex H.length with
          | (H2, .ok ()) => .ok H2
          | (_, .err e) => .err e
          | (_, .panic) => .panic
        else .err .typeMismatch

/-- The loop over the cells of a row (json.go:349-496): a cell that is not an object panics. -/
def readJsonRow (E : JsonEnv) (nested : Heap → List (GoStr × JVal) → Out (Heap × Addr)) (a : Addr) (rowIndex : Nat) (H : Heap) (cells : List JVal) : Out Heap :=
  foldOut (fun H (colIndex, val) =>
    match val with
    | .obj m => foldOut (readJsonCell E nested a rowIndex colIndex) H ((jsonEntries m).map Prod.snd)
    | _ => .panic) H ((List.range cells.length).zip cells)

/-- The loop over the rows (json.go:342-497): a row that is not an array panics. -/
def readJsonRows (E : JsonEnv) (nested : Heap → List (GoStr × JVal) → Out (Heap × Addr)) (a : Addr) (H : Heap) (data : List JVal) : Out Heap :=
  foldOut (fun H (rowIndex, val) =>
    (appendRowAt H a).bind fun H1 =>
    match val with
    | .arr cells => readJsonRow E nested a rowIndex H1 cells
    | _ => .panic) H ((List.range data.length).zip data)

/-- The loop over the metadata (json.go:314-332): the last entry of each object counts; an element that is not an object panics. -/
def readJsonCols (a : Addr) (H : Heap) (metadata : List JVal) : Out Heap :=
  foldOut (fun H colNameAndType =>
    match colNameAndType with
    | .obj m =>
      match (jsonEntries m).getLast? with
      | some (colName, .str colType) => appendColAt H a colName colType
      | _ => .err .other
    | _ => .panic) H metadata

/-- `newTableFromJSON_recursive` (json.go:272-500): the memory afterwards and the address of the new table.  The recursion depth is bounded by `depth`, and where the
bound is reached the outcome is `panic`; `newTableSetFromJSON` gives a bound that is not reached. -/
def readJsonTable (E : JsonEnv) : Nat → Heap → List (GoStr × JVal) → Out (Heap × Addr)
  | 0, _, _ => .panic
  | depth + 1, H, jsonMap =>
    match jsonGet jsonMap (gs! "tableName") with
    | some (.str tableName) =>
      match (newTable tableName : Out (Table Addr)) with
      | .err e => .err e
      | .panic => .panic
      | .ok table =>
        let table :=
          match jsonGet jsonMap (gs! "isStructShape") with
          | some (.bool b) => { table with isStructShape := b }
          | _ => table
        let a := H.length
        match jsonGet jsonMap (gs! "metadata") with
        | some (.arr metadata) =>
          (readJsonCols a (H ++ [table]) metadata).bind fun H1 =>
            match jsonGet jsonMap (gs! "data") with
            | some (.arr data) => (readJsonRows E (readJsonTable E depth) a H1 data).bind fun H2 => .ok (H2, a)
            | _ => .ok (H1, a)
        | _ => .err .other
    | _ => .err .other

/-- The loop over the tables (json.go:616-630): an element that is not an object panics. -/
def readJsonTables (E : JsonEnv) (depth : Nat) (st : Heap × TableSet) (tables : List JVal) : Out (Heap × TableSet) :=
  foldOut (fun (H, s) v =>
    match v with
    | .obj m =>
      (readJsonTable E depth H m).bind fun (H1, a) =>
        match s.appendTable H1 a with
        | (s', .ok ()) => .ok (H1, s')
        | (_, .err e) => .err e
        | (_, .panic) => .panic
    | _ => .panic) st tables

/-- `NewTableSetFromJSON` (json.go:571-633). -/
def newTableSetFromJSON (E : JsonEnv) (H : Heap) (s : GoStr) : Out (Heap × TableSet) :=
  match jsonDecode s with
  | none => .err .syntaxErr
  | some jsonMap =>
    match jsonGet jsonMap (gs! "tableSetName") with
    | some (.str tableSetName) =>
      match jsonGet jsonMap (gs! "tables") with
      | some (.arr tables) => readJsonTables E (s.length + 1) (H, newTableSet tableSetName) tables
      | _ => .err .other
    | _ => .err .other

/-- `NewTableFromJSON` (json.go:635-661). -/
def newTableFromJSON (E : JsonEnv) (H : Heap) (s : GoStr) : Out (Heap × Addr) :=
  (newTableSetFromJSON E H s).bind fun (H1, set) =>
    if set.tableCount ≠ 1 then .err .other
    else (set.getTableByTableIndex 0).bind fun a => .ok (H1, a)

end Verif
