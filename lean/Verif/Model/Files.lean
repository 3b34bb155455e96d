import Verif.Model.Printer
import Verif.Model.Json

/-!
# One table out of several, and files

The functions that read a text of several tables and pick one, and those that read and write files.

The file system is a parameter.  A `Disk` says what the operating system finds at each path, and `FileEnv` which paths are absolute, what becomes of an absolute path, which paths name the
same file, and what may be read and written.  A write either happens entirely or not at all; the permission bits of a new file are not modelled.
-/

namespace Verif

/-! ## Picking a table -/

/-- `NewTableFromStringByTableName` (gotables.go:216-228). -/
def newTableFromStringByTableName (env : TextEnv) (H : Heap) (s tableName : GoStr) : Out (Heap × Addr) :=
  (newTableSetFromString env H s).bind fun (H', set) => (set.getTable H' tableName).bind fun a => .ok (H', a)

/-- `NewTableFromStringByTableIndex` (gotables.go:230-242). -/
def newTableFromStringByTableIndex (env : TextEnv) (H : Heap) (s : GoStr) (tableIndex : Int) : Out (Heap × Addr) :=
  (newTableSetFromString env H s).bind fun (H', set) => (set.getTableByTableIndex tableIndex).bind fun a => .ok (H', a)

/-- `NewTableFromStringMustMake` (gotables.go:208-214). -/
def newTableFromStringMustMake (env : TextEnv) (H : Heap) (s : GoStr) : Out (Heap × Addr) :=
  match newTableFromString env H s with
  | .err _ => .panic
  | r => r

/-- `NewTableFromJSONByTableName` (json.go:663-675). -/
def newTableFromJSONByTableName (E : JsonEnv) (H : Heap) (s tableName : GoStr) : Out (Heap × Addr) :=
  (newTableSetFromJSON E H s).bind fun (H', set) => (set.getTable H' tableName).bind fun a => .ok (H', a)

/-! ## Files -/

/-- What is found at a path. -/
inductive Entry
  | file (content : GoStr)
  | dir
  deriving DecidableEq, Repr

/-- What the operating system finds at each path (`os.Stat`, `ioutil.ReadFile`); nothing if there is no such file. -/
abbrev Disk := GoStr → Option Entry

/-- What is assumed of paths and of the operating system. -/
structure FileEnv where
  /-- `filepath.IsAbs`. -/
  isAbs : GoStr → Bool
  /-- `UtilFilepathAbs` (util.go:194-220) followed by `filepath.ToSlash`. -/
  absPath : GoStr → Out GoStr
  /-- Two paths name the same file. -/
  same : GoStr → GoStr → Bool
  /-- `ioutil.ReadFile` of a file that exists succeeds. -/
  mayRead : Disk → GoStr → Bool
  /-- `ioutil.WriteFile` to a path that is not a directory succeeds. -/
  mayWrite : Disk → GoStr → Bool

/-- `ioutil.WriteFile`: the file and every other name of it have the new content. -/
def writeBytes (F : FileEnv) (D : Disk) (path content : GoStr) : Disk × Out Unit :=
  if D path = some .dir then (D, .err .other)
  else if F.mayWrite D path then (fun q => if F.same path q then some (.file content) else D q, .ok ())
  else (D, .err .other)

/-- `TableSet.WriteFile` (gotables.go:127-146). -/
def TableSet.writeFile (P : PrintEnv) (F : FileEnv) (H : Heap) (D : Disk) (set : TableSet) (fileName : GoStr) : Disk × Out Unit :=
  match set.stringPadded P H with
  | .ok s => writeBytes F D fileName s
  | .err e => (D, .err e)
  | .panic => (D, .panic)

/-- `Table.WriteFile` (gotables.go:149-166). -/
def Table.writeFile (P : PrintEnv) (F : FileEnv) (H : Heap) (D : Disk) (t : Table Addr) (fileName : GoStr) : Disk × Out Unit :=
  match stringPadded P H t with
  | .ok s => writeBytes F D fileName s
  | .err e => (D, .err e)
  | .panic => (D, .panic)

/-- The name under which `parseFile` opens a file (parser.go:620-626): an absolute name is cleaned. -/
def openName (F : FileEnv) (fileName : GoStr) : Out GoStr :=
  if F.isAbs fileName then F.absPath fileName else .ok fileName

/-- `parseFile` (parser.go:613-651), `NewTableSetFromFile` (gotables.go:114-124). -/
def newTableSetFromFile (env : TextEnv) (F : FileEnv) (D : Disk) (H : Heap) (inputFileName : GoStr) : Out (Heap × TableSet) :=
  (openName F inputFileName).bind fun fileName =>
    match D fileName with
    | none => .err .other
    | some .dir => .err .other
    | some (.file bytes) =>
      if F.mayRead D fileName then
        (newTableSetFromString env H bytes).bind fun (H', set) => .ok (H', { set with fileName := fileName })
      else .err .other

/-- `NewTableFromFile` (gotables.go:248-266). -/
def newTableFromFile (env : TextEnv) (F : FileEnv) (D : Disk) (H : Heap) (fileName : GoStr) : Out (Heap × Addr) :=
  (newTableSetFromFile env F D H fileName).bind fun (H', set) =>
    if set.tableCount ≠ 1 then .err .other
    else (set.getTableByTableIndex 0).bind fun a => .ok (H', a)

/-- `NewTableFromFileByTableName` (gotables.go:268-280). -/
def newTableFromFileByTableName (env : TextEnv) (F : FileEnv) (D : Disk) (H : Heap) (fileName tableName : GoStr) : Out (Heap × Addr) :=
  (newTableSetFromFile env F D H fileName).bind fun (H', set) => (set.getTable H' tableName).bind fun a => .ok (H', a)

end Verif
