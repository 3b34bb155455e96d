import Verif.Model.Core
import Verif.Go.Quote

/-!
# Generated code: names and text
-/

namespace Verif

/-- `unicode.IsLetter(rune(b))` for a byte that is ASCII.  Simplification: other bytes, which no type name has, count as no letter. -/
def isAsciiLetter (b : UInt8) : Bool := (65 ≤ b && b ≤ 90) || (97 ≤ b && b ≤ 122)

/-- `bytes.ToUpper` of one ASCII byte. -/
def upperByte (b : UInt8) : UInt8 := if 97 ≤ b ∧ b ≤ 122 then b - 32 else b

/-- The loop of `typeProper` (generate.go:311-321). -/
def typeProperLoop (upshifted : Bool) : GoStr → GoStr
  | [] => []
  | c :: cs =>
    if !upshifted && isAsciiLetter c then upperByte c :: typeProperLoop true cs
    else c :: typeProperLoop upshifted cs

/-- `typeProper` (generate.go:308-324). -/
def typeProper (typeName : GoStr) : GoStr := typeProperLoop false typeName

/-- `accessorName` (generate.go:327-333).  91 and 93 are the square brackets. -/
def accessorName (typeName : GoStr) : GoStr :=
  match typeName with
  | 91 :: 93 :: cs => typeProper cs ++ gs! "Slice"
  | _ => typeProper typeName

/-- `getterName` (generate.go:336-338). -/
def getterName (typeName : GoStr) : GoStr := gs! "Get" ++ accessorName typeName

/-- `setterName` (generate.go:341-343). -/
def setterName (typeName : GoStr) : GoStr := gs! "Set" ++ accessorName typeName

/-- The loop of the generators over the columns (generate.go:62-76, 244-262, 533-551): `table.ColName`, `table.ColTypeByColIndex`, then text.
`sep` goes before the first column, `sep'` before each other one. -/
def eachColText {τ : Type} (t : Table τ) (piece : GoStr → ColType → GoStr) (sep' : GoStr) : GoStr → List Nat → Out GoStr
  | _, [] => .ok []
  | sep, colIndex :: rest =>
    (t.colName colIndex).bind fun colName => (t.colTypeByColIndex colIndex).bind fun colType =>
      (eachColText t piece sep' sep' rest).bind fun text => .ok (sep ++ piece colName colType ++ text)

/-- `GenerateTypeStruct` (generate.go:44-82) of a table that is not a nil pointer; `now` is the text of the current time. -/
def generateTypeStruct {τ : Type} (now : GoStr) (t : Table τ) : Out GoStr :=
  let tableName := t.name
  let head := gs! "/*\n" ++ (gs! "\tAutomatically generated source code. DO NOT MODIFY. Generated " ++ now ++ gs! ".\n\n") ++
    (gs! "\ttype " ++ tableName ++ gs! " struct generated from *gotables.Table [" ++ tableName ++ gs! "] for including in your code.\n") ++
    gs! "*/\n" ++ gs! "type " ++ tableName ++ gs! " struct {\n"
  (eachColText t (fun colName colType => gs! "\t" ++ colName ++ gs! " " ++ colType.name ++ gs! "\n") [] [] (List.range t.colCount)).bind
    fun body => .ok (head ++ body ++ gs! "}\n")

/-- `GenerateTypeStructSliceFromTable` (generate.go:221-274) of a table that is not a nil pointer; `now` is the text of the current time,
`hi` tells which code points above U+00FF are printable. -/
def generateTypeStructSliceFromTable {τ : Type} (hi : Nat → Bool) (now : GoStr) (t : Table τ) : Out GoStr :=
  let tableName := t.name
  let funcName := gs! "TypeStructSliceFromTable_" ++ tableName
  let head := gs! "/*\n" ++ (gs! "\tAutomatically generated source code. DO NOT MODIFY. Generated " ++ now ++ gs! ".\n\n") ++
    (gs! "\tGenerate a slice of type " ++ tableName ++ gs! " struct from *gotables.Table [" ++ tableName ++ gs! "] for including in your code.\n") ++
    gs! "*/\n" ++
    (gs! "func " ++ funcName ++ gs! "(table *gotables.Table) ([]" ++ tableName ++ gs! ", error) {\n") ++
    gs! "\tif table == nil {\n" ++
    (gs! "\t\treturn nil, fmt.Errorf(\"" ++ funcName ++ gs! "(slice []" ++ tableName ++ gs! ") slice is <nil>\")\n") ++
    gs! "\t}\n\n" ++
    (gs! "\tvar " ++ tableName ++ gs! " []" ++ tableName ++ gs! " = make([]" ++ tableName ++ gs! ", table.RowCount())\n\n") ++
    gs! "\tfor rowIndex := 0; rowIndex < table.RowCount(); rowIndex++ {\n"
  (eachColText t (fun colName colType =>
      (gs! "\t\t" ++ colName ++ gs! ", err := table." ++ getterName colType.name ++ gs! "(" ++ strconvQuote hi colName ++ gs! ", rowIndex)\n") ++
      gs! "\t\tif err != nil {\n" ++ gs! "\t\t\treturn nil, err\n" ++ gs! "\t\t}\n" ++
      (gs! "\t\t" ++ tableName ++ gs! "[rowIndex]." ++ colName ++ gs! " = " ++ colName ++ gs! "\n"))
    (gs! "\n") [] (List.range t.colCount)).bind
    fun body => .ok (head ++ body ++ gs! "\t}\n\n" ++ (gs! "\treturn " ++ tableName ++ gs! ", nil\n") ++ gs! "}\n")

/-- The loop of `stringSliceToLiteral` (generate.go:577-582). -/
def literalLoop (hi : Nat → Bool) : GoStr → List GoStr → GoStr
  | _, [] => []
  | delim, s :: rest => delim ++ strconvQuote hi s ++ literalLoop hi (gs! ",") rest

/-- `stringSliceToLiteral` (generate.go:572-587). -/
def stringSliceToLiteral (hi : Nat → Bool) (slice : List GoStr) : GoStr := gs! "[]string{" ++ literalLoop hi [] slice ++ gs! "}"

/-- The loop of `GetColInfoAsSlices` (gotables.go:2153-2166). -/
def colInfoLoop {τ : Type} (t : Table τ) : List Nat → Out (List GoStr × List GoStr)
  | [] => .ok ([], [])
  | colIndex :: rest =>
    (t.colName colIndex).bind fun colName => (t.getColInfo colName).bind fun info =>
      (colInfoLoop t rest).bind fun r => .ok (colName :: r.1, info.2.name :: r.2)

/-- `GetColInfoAsSlices` (gotables.go:2141-2169) of a table that is not a nil pointer. -/
def getColInfoAsSlices {τ : Type} (t : Table τ) : Out (List GoStr × List GoStr) :=
  if t.isNilTable then .err .nilTable else colInfoLoop t (List.range t.colCount)

/-- `GenerateTypeStructSliceToTable` (generate.go:487-561) of a table that is not a nil pointer; `now` and `hi` as above. -/
def generateTypeStructSliceToTable {τ : Type} (hi : Nat → Bool) (now : GoStr) (t : Table τ) : Out GoStr :=
  let tableName := t.name
  let funcName := gs! "TypeStructSliceToTable_" ++ tableName
  (getColInfoAsSlices t).bind fun info =>
  let head := gs! "/*\n" ++ (gs! "\tAutomatically generated source code. DO NOT MODIFY. Generated " ++ now ++ gs! ".\n\n") ++
    (gs! "\tGenerate a gotables Table [" ++ tableName ++ gs! "] from a slice of type struct []" ++ tableName ++ gs! " for including in your code.\n") ++
    gs! "*/\n" ++
    (gs! "func " ++ funcName ++ gs! "(slice []" ++ tableName ++ gs! ") (*gotables.Table, error) {\n") ++
    gs! "\tif slice == nil {\n" ++
    (gs! "\t\treturn nil, fmt.Errorf(\"" ++ funcName ++ gs! "(slice []" ++ tableName ++ gs! ") slice is <nil>\")\n") ++
    gs! "\t}\n\n" ++
    gs! "\tvar err error\n\n" ++
    gs! "\tvar table *gotables.Table\n" ++
    (gs! "\tvar tableName string = " ++ strconvQuote hi tableName ++ gs! "\n") ++
    (gs! "\tvar colNames []string = " ++ stringSliceToLiteral hi info.1 ++ gs! "\n") ++
    (gs! "\tvar colTypes []string = " ++ stringSliceToLiteral hi info.2 ++ gs! "\n") ++
    gs! "\ttable, err = gotables.NewTableFromMetadata(tableName, colNames, colTypes)\n" ++
    gs! "\tif err != nil {\n" ++ gs! "\t\treturn nil, err\n" ++ gs! "\t}\n\n" ++
    gs! "\tfor rowIndex := 0; rowIndex < len(slice); rowIndex++ {\n" ++
    gs! "\t\terr = table.AppendRow()\n" ++ gs! "\t\tif err != nil {\n" ++ gs! "\t\t\treturn nil, err\n" ++ gs! "\t\t}\n\n"
  (eachColText t (fun colName colType =>
      (gs! "\t\terr = table." ++ setterName colType.name ++ gs! "(" ++ strconvQuote hi colName ++ gs! ", rowIndex, slice[rowIndex]." ++ colName ++
        gs! ")\n") ++
      gs! "\t\tif err != nil {\n" ++ gs! "\t\t\treturn nil, err\n" ++ gs! "\t\t}\n")
    (gs! "\n") [] (List.range t.colCount)).bind
    fun body => .ok (head ++ body ++ gs! "\t}\n\n" ++ gs! "\treturn table, nil\n" ++ gs! "}\n")

end Verif
