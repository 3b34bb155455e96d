import Verif.Spec.GoLang
import Verif.Model.Generate
import Verif.Spec.WF

/-!
# The programs that the generators are meant to write

The struct type of a table and the two functions between tables and slices of that struct, as Go programs.  Only the names of the accessors
(C52) come from the model.
-/

namespace Verif.GoLang

open Verif

/-- The text around a generated piece: its comment says when it was generated. -/
def generatedAt (now what : GoStr) : GoStr :=
  comment (gs! "\tAutomatically generated source code. DO NOT MODIFY. Generated " ++ now ++ gs! ".\n\n" ++ gs! "\t" ++ what ++
    gs! " for including in your code.\n")

/-- `type T struct { column type … }` -/
def structOf (name : GoStr) (cols : List (GoStr × ColType)) : Struct := { name := name, fields := cols }

/-- `if err != nil { return nil, err }` -/
def orReturn (rest : Code) : Code := .ifThen (.ne (.id (gs! "err")) (.id (gs! "nil"))) (.ret (.id (gs! "nil")) (.id (gs! "err")) .done) rest

/-- `*gotables.Table` -/
def tablePtrType : Expr := .ptrTo (.sel (.id (gs! "gotables")) (gs! "Table"))

/-- Empty lines between the pieces for the columns. -/
def gapUnlessLast (rest : List (GoStr × ColType)) (code : Code) : Code := if rest.isEmpty then code else .gap code

/-- For each column: `c, err := table.Get…("c", rowIndex)`, the check, `T[rowIndex].c = c`. -/
def getCols (name : GoStr) : List (GoStr × ColType) → Code
  | [] => .done
  | (n, ty) :: rest =>
    .define n (gs! "err") (.call2 (.sel (.id (gs! "table")) (getterName ty.name)) (.str n) (.id (gs! "rowIndex")))
      (orReturn
        (.assign (.sel (.idx (.id name) (.id (gs! "rowIndex"))) n) (.id n)
          (gapUnlessLast rest (getCols name rest))))

/-- The function from a table to a slice of structs. -/
def fromTableFunc (name : GoStr) (cols : List (GoStr × ColType)) : Func where
  name := gs! "TypeStructSliceFromTable_" ++ name
  param := gs! "table"
  type := tablePtrType
  res1 := .sliceOf (.id name)
  res2 := .id (gs! "error")
  body :=
    .ifThen (.eq (.id (gs! "table")) (.id (gs! "nil")))
      (.ret (.id (gs! "nil")) (.call1 (.sel (.id (gs! "fmt")) (gs! "Errorf"))
        (.str (gs! "TypeStructSliceFromTable_" ++ name ++ gs! "(slice []" ++ name ++ gs! ") slice is <nil>"))) .done)
    (.gap (.varInit name (.sliceOf (.id name)) (.call2 (.id (gs! "make")) (.sliceOf (.id name)) (.call0 (.sel (.id (gs! "table")) (gs! "RowCount"))))
    (.gap (.forUp (gs! "rowIndex") (.call0 (.sel (.id (gs! "table")) (gs! "RowCount"))) (getCols name cols)
    (.gap (.ret (.id name) (.id (gs! "nil")) .done))))))

/-- For each column: `err = table.Set…("c", rowIndex, slice[rowIndex].c)` and the check. -/
def setCols : List (GoStr × ColType) → Code
  | [] => .done
  | (n, ty) :: rest =>
    .assign (.id (gs! "err")) (.call3 (.sel (.id (gs! "table")) (setterName ty.name)) (.str n) (.id (gs! "rowIndex"))
        (.sel (.idx (.id (gs! "slice")) (.id (gs! "rowIndex"))) n))
      (orReturn (gapUnlessLast rest (setCols rest)))

/-- The function from a slice of structs to a table. -/
def toTableFunc (name : GoStr) (cols : List (GoStr × ColType)) : Func where
  name := gs! "TypeStructSliceToTable_" ++ name
  param := gs! "slice"
  type := .sliceOf (.id name)
  res1 := tablePtrType
  res2 := .id (gs! "error")
  body :=
    .ifThen (.eq (.id (gs! "slice")) (.id (gs! "nil")))
      (.ret (.id (gs! "nil")) (.call1 (.sel (.id (gs! "fmt")) (gs! "Errorf"))
        (.str (gs! "TypeStructSliceToTable_" ++ name ++ gs! "(slice []" ++ name ++ gs! ") slice is <nil>"))) .done)
    (.gap (.var (gs! "err") (.id (gs! "error"))
    (.gap (.var (gs! "table") tablePtrType
    (.varInit (gs! "tableName") (.id (gs! "string")) (.str name)
    (.varInit (gs! "colNames") (.sliceOf (.id (gs! "string"))) (.strs (cols.map Prod.fst))
    (.varInit (gs! "colTypes") (.sliceOf (.id (gs! "string"))) (.strs (cols.map fun c => c.2.name))
    (.assign2 (gs! "table") (gs! "err") (.call3 (.sel (.id (gs! "gotables")) (gs! "NewTableFromMetadata")) (.id (gs! "tableName")) (.id (gs! "colNames"))
      (.id (gs! "colTypes")))
    (orReturn
    (.gap (.forUp (gs! "rowIndex") (.call1 (.id (gs! "len")) (.id (gs! "slice")))
      (.assign (.id (gs! "err")) (.call0 (.sel (.id (gs! "table")) (gs! "AppendRow")))
        (orReturn (.gap (setCols cols))))
    (.gap (.ret (.id (gs! "table")) (.id (gs! "nil")) .done)))))))))))))

/-- The file with the three generated pieces. -/
def programOf (name : GoStr) (cols : List (GoStr × ColType)) : Program where
  struct := structOf name cols
  funcs := [fromTableFunc name cols, toTableFunc name cols]

/-- Names for a table that the generated text itself uses, that are imported, or that a type must not have. -/
def takenForTable : List GoStr :=
  [gs! "_", gs! "init", gs! "main", gs! "fmt", gs! "gotables", gs! "table", gs! "err", gs! "rowIndex", gs! "nil", gs! "error", gs! "make", gs! "len"]

/-- Names for a column that the loop of the generated text itself uses, and `_`. -/
def takenForCol : List GoStr := [gs! "_", gs! "table", gs! "err", gs! "rowIndex", gs! "nil"]

/-- The table's name and columns do not clash with the generated text: identifiers, none of the names above, no column with the name of the table,
and no columns of type `*Table` or `time.Time`. -/
structure Usable (name : GoStr) (cols : List (GoStr × ColType)) : Prop where
  nameOK : isIdent name = true ∧ name ∉ takenForTable
  colsOK : ∀ c ∈ cols, isIdent c.1 = true ∧ c.1 ∉ takenForCol ∧ c.1 ≠ name ∧ c.2 ≠ .table ∧ c.2 ≠ .time

/-- The struct value holds row `r` of the table: its fields are the given columns, in this order, with the values of the cells. -/
def RecordAt {τ : Type} (t : Table τ) (cols : List (GoStr × ColType)) (r : Nat) (rec : List (GoStr × Cell τ)) : Prop :=
  rec.length = cols.length ∧
  ∀ (i : Nat) (n : GoStr) (ty : ColType), cols[i]? = some (n, ty) → ∃ c, rec[i]? = some (n, c) ∧ At t n r c

/-- A value of the struct type: its fields are the given columns, in this order, with values of their types. -/
def RecordOK {τ : Type} (cols : List (GoStr × ColType)) (rec : List (GoStr × Cell τ)) : Prop :=
  rec.length = cols.length ∧
  ∀ (i : Nat) (n : GoStr) (ty : ColType), cols[i]? = some (n, ty) → ∃ c, rec[i]? = some (n, c) ∧ c.HasType ty

end Verif.GoLang
