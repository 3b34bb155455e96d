import Verif.Model.Parser

/-!
# Model: the position in an error of the parser

The messages of errors are not modelled, but for the number of the line that they name.
-/

namespace Verif

/-- Whether an error of the step for this line, already trimmed, is reported with the position (parser.go:256-529 and 531-1280).  All are made with `gotFilePos()` (parser.go:653-655) but that of
`table.appendCols` (parser.go:486-489), which is called once the types of columns are found valid and as many as the names.
Errors of `tables.SetName`, `getTableShape` ("already set"), `table.AppendRow`, `table.SetStructShape` and `table.appendRowSlice` have no position either, but do not occur. -/
def reportsLine (p : PState) (line : GoStr) : Bool :=
  !(p.expecting = .colTypes && line ≠ [] && (whiteSplit line).all (fun ty => (ColType.ofName? ty).isSome) && (whiteSplit line).length = p.colNames.length)

/-- The value of `globalLineNum` (parser.go:94, 287-288) when the loop of `parseString` is left with an error: `none` if it is not, `some none` if the error does not report it.  `n` is the number
of the first line.  As in `parseLines`, one more line is read after a last line that is skipped.  (`globalLineNum` is a variable of the package: with two parsers at the same time the number may be that of
the other one; only one is modelled.) -/
def errorLine (env : TextEnv) (p : PState) (n : Nat) : List GoStr → Option (Option Nat)
  | [] => none
  | line :: rest =>
    match step env p (trimSpace line) with
    | .ok (p', skipped) =>
      if rest = [] then
        if skipped then
          match step env p' [] with
          | .ok _ => none
          | _ => some (some (n + 1))
        else none
      else errorLine env p' (n + 1) rest
    | _ => some (if reportsLine p (trimSpace line) then some n else none)

/-- The line that is named in the error of `NewTableSetFromString` (gotables.go:167-176): `none` if there is no error, `some none` if it names no line. -/
def lineOfError (env : TextEnv) (H : Heap) (s : GoStr) : Option (Option Nat) := errorLine env (startState H) 1 (splitLines s)

end Verif
