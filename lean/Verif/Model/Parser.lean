import Verif.Model.Scan
import Verif.Model.TableSet

/-!
# The parser of the text format

`p.gotFilePos()`, line numbers and the texts of errors are not modelled.
-/

namespace Verif

/-- Library functions used by the parser that are not modelled. -/
structure TextEnv where
  /-- strconv's conversion of floats -/
  float : FloatText
  /-- `time.Parse(time.RFC3339, …)`; `none` is an error -/
  parseTime : GoStr → Option GoTime

/-! ## Rows -/

/-- The integer type behind a column type, for those read by `intRegexp` or `uintRegexp` (parser.go:921-1158, 1174-1190). -/
def ColType.intKind? : ColType → Option IntKind
  | .int => some .int
  | .int8 => some .int8
  | .int16 => some .int16
  | .int32 => some .int32
  | .int64 => some .int64
  | .uint => some .uint
  | .uint8 => some .uint8
  | .byte => some .uint8
  | .uint16 => some .uint16
  | .uint32 => some .uint32
  | .uint64 => some .uint64
  | _ => none

/-- One pass of the loop of `getRowSlice` (parser.go:893-1259): the cell of a column of type `colTypes[i]` from the start of the remaining text.
The result is the memory (a `*Table` cell is a new table whose parent is `table`), the cell and the text after it. -/
def readCell (env : TextEnv) (H : Heap) (table : Addr) (ty : ColType) (remaining : GoStr) : Out (Heap × Cell Addr × GoStr) :=
  match ty.intKind? with
  | some k => (readInt k remaining).bind fun (v, rest) => .ok (H, .int k v, rest)
  | none =>
    match ty with
    | .string => (readString remaining).bind fun (s, rest) => .ok (H, .str s, rest)
    | .bool => (readBool remaining).bind fun (b, rest) => .ok (H, .bool b, rest)
    | .uint8Slice => (readBytes remaining).bind fun (b, rest) => .ok (H, .bytes (some b), rest)
    | .byteSlice => (readBytes remaining).bind fun (b, rest) => .ok (H, .bytes (some b), rest)
    | .rune => (readRune remaining).bind fun (v, rest) => .ok (H, .int .int32 v, rest)
    | .float32 => (readFloat32 env.float remaining).bind fun (b, rest) => .ok (H, .f32 b, rest)
    | .float64 => (readFloat64 env.float remaining).bind fun (b, rest) => .ok (H, .f64 b, rest)
    | .table => (readTable remaining).bind fun (t, rest) => .ok (H ++ [{ t with parent := some table }], .tbl (some H.length), rest)
    | .time => (readTime env.parseTime remaining).bind fun (t, rest) => .ok (H, .time t, rest)
    | _ => .err .syntaxErr

/-- `strings.TrimLeft(remaining, " \t")`. -/
def trimBlanks (l : GoStr) : GoStr := l.dropWhile fun c => c = 32 || c = 9

/-- `getRowSlice` (parser.go:862-1275).  `rowSlice` has the length of `colNames`; storing beyond it would panic. -/
def readRow (env : TextEnv) (table : Addr) : Heap → List GoStr → List GoStr → GoStr → Out (Heap × List (Cell Addr))
  | H, colNames, [], remaining => if remaining.length > 0 then .err .syntaxErr else .ok (H, colNames.map fun _ => .nil)
  | H, colNames, colType :: colTypes, remaining =>
    if remaining.length = 0 then .err .syntaxErr
    else
      match ColType.ofName? colType with
      | none => .err .syntaxErr
      | some ty =>
        (readCell env H table ty remaining).bind fun (H1, cell, rest) =>
          match colNames with
          | [] => .panic
          | _ :: colNames => (readRow env table H1 colNames colTypes (trimBlanks rest)).bind fun (H2, cells) => .ok (H2, cell :: cells)

/-! ## Lines -/

/-- `unicode.IsSpace`. -/
def isSpaceRune (r : Nat) : Bool :=
  (9 ≤ r && r ≤ 13) || r = 0x20 || r = 0x85 || r = 0xA0 || r = 0x1680 || (0x2000 ≤ r && r ≤ 0x200A) || r = 0x2028 || r = 0x2029 ||
  r = 0x202F || r = 0x205F || r = 0x3000

/-- Remove leading space; the number counts the bytes of the current code point still to be removed. -/
def trimSpaceLeft : Nat → GoStr → GoStr
  | _, [] => []
  | k + 1, _ :: cs => trimSpaceLeft k cs
  | 0, c :: cs =>
    match decodeRune? (c :: cs) with
    | some (r, w) => if isSpaceRune r then trimSpaceLeft (w - 1) cs else c :: cs
    | none => c :: cs

/-- Remove trailing space; the text is reversed.  The multi-byte cases are the encodings of the space code points, read backwards. -/
def trimSpaceRev : GoStr → GoStr
  | [] => []
  | c :: cs =>
    if c.toNat < 0x80 then (if isSpaceRune c.toNat then trimSpaceRev cs else c :: cs)
    else
      match cs with
      | [] => c :: cs
      | d :: ds =>
        if d = 0xC2 ∧ (c = 0x85 ∨ c = 0xA0) then trimSpaceRev ds
        else
          match ds with
          | [] => c :: cs
          | e :: es =>
            match decodeRune? [e, d, c] with
            | some (r, 3) => if isSpaceRune r then trimSpaceRev es else c :: cs
            | _ => c :: cs

/-- `strings.TrimSpace`. -/
def trimSpace (l : GoStr) : GoStr := (trimSpaceRev (trimSpaceLeft 0 l).reverse).reverse

/-- The text contains a code point of white space.  (`strings.Fields` of a trimmed non-empty line has exactly one element, the line, if not.) -/
def hasSpace : Nat → GoStr → Bool
  | _, [] => false
  | k + 1, _ :: cs => hasSpace k cs
  | 0, c :: cs =>
    match decodeRune? (c :: cs) with
    | some (r, w) => isSpaceRune r || hasSpace (w - 1) cs
    | none => hasSpace 0 cs

/-- `whiteRegexp.Split(line, _ALL_SUBSTRINGS)` (parser.go:160): split at runs of white characters. -/
def whiteSplit : GoStr → List GoStr
  | [] => [[]]
  | c :: cs =>
    if isWhite c then
      match cs with
      | [] => [[], []]
      | d :: _ => if isWhite d then whiteSplit cs else [] :: whiteSplit cs
    else
      match whiteSplit cs with
      | p :: ps => (c :: p) :: ps
      | [] => [[c]]

/-- The pieces of the input between newlines, as `ReadString('\n')` delivers them (the newline itself is trimmed with the other white space).
There is at least one; the last one is delivered with `io.EOF`. -/
def splitLines : GoStr → List GoStr
  | [] => [[]]
  | c :: cs =>
    if c = 10 then [] :: splitLines cs
    else
      match splitLines cs with
      | p :: ps => (c :: p) :: ps
      | [] => [[c]]

/-- `getTableSetName` (parser.go:668-688); `none` is an error. -/
def getTableSetName (line : GoStr) : Option GoStr :=
  if hasSpace 0 line then none
  else
    match line with
    | 91 :: 91 :: cs =>
      match scanName cs with
      | some (n, [93, 93]) => some n
      | _ => none
    | _ => none

/-- `getTableName` (parser.go:690-709). -/
def getTableName (line : GoStr) : Out GoStr :=
  if hasSpace 0 line then .err .syntaxErr
  else
    match scanTableName line with
    | none => .err .syntaxErr
    | some _ => .ok (line.drop 1).dropLast

/-- What the parser expects next (parser.go:214-230). -/
inductive Section where
  | tableName | colNames | colTypes | colRows
  deriving DecidableEq, Repr

/-- `_TableShape` (parser.go:236-245). -/
inductive Shape where
  | undefined | table | struct
  deriving DecidableEq, Repr

/-- The tokens begin with a column name, a type and an equals sign. -/
def looksLikeStruct (lineSplit : List GoStr) : Bool :=
  match lineSplit with
  | n :: ty :: eq :: _ => isValidColName n && (ColType.ofName? ty).isSome && decide (eq = [61])
  | _ => false

/-- `getTableShape` (parser.go:532-611) for an undefined shape: the shape and whether the struct has a row of data. -/
def getTableShape (lineSplit : List GoStr) : Out (Shape × Bool) :=
  match lineSplit with
  | [_] => .ok (.table, false)
  | [n, ty] => if isValidColName n && (ColType.ofName? ty).isSome then .ok (.struct, false) else .ok (.table, false)
  | [_, _, eq] => if eq = [61] then .err .syntaxErr else .ok (.table, false)
  | _ => if looksLikeStruct lineSplit then .ok (.struct, true) else .ok (.table, false)

/-- The local variables of `parseString` (parser.go:261-287) and the memory. -/
structure PState where
  heap : Heap
  set : TableSet
  table : Addr
  expecting : Section
  shape : Shape
  structHasRowData : Bool
  nameSet : Bool
  colNames : List GoStr
  colTypes : List GoStr

/-- `table.AppendCol(colName, colType)` for a table in memory.  New nil tables are made for the rows (even if the column is not of type `*Table`:
they are then garbage). -/
def appendColAt (H : Heap) (a : Addr) (colName colType : GoStr) : Out Heap :=
  match H[a]? with
  | none => .panic
  | some t =>
    match t.appendCol (fun _ r => H.length + r) colName colType with
    | (t', .ok ()) => .ok (H.set a t' ++ List.replicate t.rows.length newNilTable)
    | (_, .err e) => .err e
    | (_, .panic) => .panic

/-- `table.AppendRow()` for a table in memory.  New nil tables are made for the columns (garbage if the column is not of type `*Table`); their parent is
the table (helpers.go:4999-5000). -/
def appendRowAt (H : Heap) (a : Addr) : Out Heap :=
  match H[a]? with
  | none => .panic
  | some t =>
    match t.appendRow (fun c _ => H.length + c) with
    | (t', .ok ()) => .ok (H.set a t' ++ List.replicate t.colTypes.length { (newNilTable : Table Addr) with parent := some a })
    | (_, .err e) => .err e
    | (_, .panic) => .panic

/-- `table.appendCols(colNames, colTypes)` (gotables.go:2001-2017) for a table in memory. -/
def appendColsAt (H : Heap) (a : Addr) (colNames colTypes : List GoStr) : Out Heap :=
  if colNames.length ≠ colTypes.length then .err .other
  else (colNames.zip colTypes).foldl (fun (o : Out Heap) (p : GoStr × GoStr) => o.bind fun H => appendColAt H a p.1 p.2) (.ok H)

/-- Case `_TABLE_NAME` for a line that is not empty (parser.go:316-351).  The flag says that the loop is continued at once. -/
def stepTableName (p : PState) (line : GoStr) : Out (PState × Bool) :=
  match (if p.nameSet then none else getTableSetName line) with
  | some n => .ok ({ p with set := { p.set with name := n }, nameSet := true }, true)
  | none =>
    (getTableName line).bind fun tableName =>
      (Table.newTable tableName).bind fun t =>
        let a := p.heap.length
        let H := p.heap ++ [t]
        match p.set.appendTable H a with
        | (set', .ok ()) => .ok ({ p with heap := H, set := set', table := a, shape := .undefined, expecting := .colNames }, false)
        | (_, .err e) => .err e
        | (_, .panic) => .panic

/-- The text after the first equals sign. -/
def afterEquals : GoStr → Option GoStr
  | [] => none
  | c :: cs => if c = 61 then some cs else afterEquals cs

/-- `strings.TrimLeft(valueData, " \t\r\n")`. -/
def trimBlankLines (l : GoStr) : GoStr := l.dropWhile fun c => c = 32 || c = 9 || c = 13 || c = 10

/-- The value of a struct line (parser.go:401-448). -/
def stepStructValue (env : TextEnv) (H : Heap) (a : Addr) (line : GoStr) (lineSplit : List GoStr) (colName colType : GoStr) : Out Heap :=
  match afterEquals line with
  | none => .err .syntaxErr
  | some valueData =>
    if lineSplit.length < 4 then .err .syntaxErr
    else
      match H[a]? with
      | none => .panic
      | some t =>
        (if t.rowCount = 0 then
          (appendRowAt H a).bind fun H1 =>
            match H1[a]? with
            | none => .panic
            | some t1 => .ok (H1.set a { t1 with isStructShape := true })
        else .ok H).bind fun H2 =>
          (readRow env a H2 [colName] [colType] (trimBlankLines valueData)).bind fun (H3, cells) =>
            match cells[0]?, H3[a]? with
            | some val, some t3 =>
              match t3.rows[0]? with
              | none => .panic
              | some row =>
                match t3.setValByColIndex ((row.length : Int) - 1) 0 val with
                | (t4, .ok ()) => .ok (H3.set a t4)
                | (_, .err e) => .err e
                | (_, .panic) => .panic
            | _, _ => .panic

/-- A line of a struct (parser.go:366-452). -/
def stepStruct (env : TextEnv) (p : PState) (line : GoStr) (lineSplit : List GoStr) : Out PState :=
  match p.heap[p.table]? with
  | none => .panic
  | some t =>
    let H := p.heap.set p.table { t with isStructShape := true }
    match lineSplit with
    | colName :: colType :: _ =>
      if isValidColName colName = false then .err .syntaxErr
      else if (ColType.ofName? colType).isNone then .err .syntaxErr
      else
        (appendColAt H p.table colName colType).bind fun H1 =>
          if p.structHasRowData then
            (stepStructValue env H1 p.table line lineSplit colName colType).bind fun H2 => .ok { p with heap := H2 }
          else .ok { p with heap := H1 }
    | _ => .err .syntaxErr

/-- Case `_COL_NAMES` (parser.go:353-466); `getColNames` (parser.go:711-730) only validates. -/
def stepColNames (env : TextEnv) (p : PState) (line : GoStr) (lineSplit : List GoStr) : Out PState :=
  (if p.shape = .undefined then
    (getTableShape lineSplit).bind fun (shape, hasRowData) => .ok { p with shape := shape, structHasRowData := hasRowData }
  else .ok p).bind fun p =>
    if p.shape = .struct then stepStruct env p line lineSplit
    else if lineSplit.all isValidColName then .ok { p with colNames := lineSplit, expecting := .colTypes }
    else .err .syntaxErr

/-- Case `_COL_TYPES` (parser.go:468-491); `getColTypes` (parser.go:732-749) only validates. -/
def stepColTypes (p : PState) (lineSplit : List GoStr) : Out PState :=
  if lineSplit.all (fun ty => (ColType.ofName? ty).isSome) = false then .err .syntaxErr
  else if lineSplit.length ≠ p.colNames.length then .err .syntaxErr
  else (appendColsAt p.heap p.table p.colNames lineSplit).bind fun H => .ok { p with heap := H, colTypes := lineSplit, expecting := .colRows }

/-- Case `_COL_ROWS` (parser.go:493-519), with `appendRowSlice` (gotables.go:965-985). -/
def stepColRows (env : TextEnv) (p : PState) (line : GoStr) : Out PState :=
  (readRow env p.table p.heap p.colNames p.colTypes line).bind fun (H, row) =>
    match H[p.table]? with
    | none => .panic
    | some t => if p.colTypes.length ≠ row.length then .err .syntaxErr else .ok { p with heap := H.set p.table { t with rows := t.rows ++ [row] } }

/-- The body of the loop of `parseString` (parser.go:289-525) for one line, already trimmed.  The flag says that the loop is continued at once, without the test
for the end of the input. -/
def step (env : TextEnv) (p : PState) (line : GoStr) : Out (PState × Bool) :=
  match line with
  | [] => if p.expecting = .colTypes then .err .syntaxErr else .ok ({ p with expecting := .tableName }, false)
  | 35 :: _ => .ok (p, true)
  | _ =>
    match p.expecting with
    | .tableName => stepTableName p line
    | .colNames => (stepColNames env p line (whiteSplit line)).bind fun p' => .ok (p', false)
    | .colTypes => (stepColTypes p (whiteSplit line)).bind fun p' => .ok (p', false)
    | .colRows => (stepColRows env p line).bind fun p' => .ok (p', false)

/-- The loop of `parseString` over the lines.  If the last line is skipped by `continue`, an empty line is read before the end of the input is noticed. -/
def parseLines (env : TextEnv) (p : PState) : List GoStr → Out PState
  | [] => .ok p
  | line :: rest =>
    (step env p (trimSpace line)).bind fun (p', skipped) =>
      if rest = [] then
        if skipped then (step env p' []).bind fun (p'', _) => .ok p'' else .ok p'
      else parseLines env p' rest

/-- The variables of `parseString` before its loop (parser.go:258-300). -/
def startState (H : Heap) : PState :=
  { heap := H, set := newTableSet [], table := 0, expecting := .tableName, shape := .undefined, structHasRowData := false,
    nameSet := false, colNames := [], colTypes := [] }

/-- `parseString` (parser.go:256-529), `NewTableSetFromString` (gotables.go:167-176): the memory and the table set. -/
def newTableSetFromString (env : TextEnv) (H : Heap) (s : GoStr) : Out (Heap × TableSet) :=
  (parseLines env (startState H) (splitLines s)).bind fun p => .ok (p.heap, p.set)

/-- `NewTableFromString` (gotables.go:182-201). -/
def newTableFromString (env : TextEnv) (H : Heap) (s : GoStr) : Out (Heap × Addr) :=
  (newTableSetFromString env H s).bind fun (H', set) =>
    if set.tableCount ≠ 1 then .err .other
    else (set.getTableByTableIndex 0).bind fun a => .ok (H', a)

end Verif
