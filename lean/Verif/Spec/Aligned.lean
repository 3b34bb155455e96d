import Verif.Spec.WF
import Verif.Spec.Text
import Verif.Model.Printer

/-!
# Specification: columns that line up
-/

namespace Verif

/-- The number of code points of a text (`utf8.RuneCountInString`). -/
def codePoints (s : GoStr) : Nat := runeCount 0 s

/-- A field of `w` code points: the text, with spaces before it (right-aligned) or after it (left-aligned). -/
def FieldOf (right : Bool) (w : Nat) (text field : GoStr) : Prop :=
  codePoints field = w ∧ ∃ n, field = if right then List.replicate n 32 ++ text else text ++ List.replicate n 32

/-- A line: fields with single spaces between them, the spaces at the end left out. -/
def LineOf (fields : List GoStr) (line : GoStr) : Prop :=
  (∃ n, line ++ List.replicate n 32 = joinSep [32] fields) ∧ ∃ c, line.getLast? = some c ∧ c ≠ 32

/-- A decimal number in a column with `p` digits after the point: perhaps a minus, digits, and, unless `p` is zero, a point and digits and spaces, `p` of them together. -/
def DecimalAt (p : Nat) (s : GoStr) : Prop :=
  ∃ sign whole rest, s = sign ++ whole ++ rest ∧ (sign = [] ∨ sign = [45]) ∧ Digits whole ∧
    ((p = 0 ∧ rest = []) ∨ (p ≠ 0 ∧ ∃ ds n, rest = 46 :: ds ++ List.replicate n 32 ∧ Digits ds ∧ ds.length + n = p))

/-- The text of a cell in the padded text: a finite float is a decimal number, anything else has the text that it has without padding. -/
def ShownAs (P : PrintEnv) (H : Heap) (ty : ColType) (p : Nat) (c : Cell Addr) (s : GoStr) : Prop :=
  ((∃ b, c = .f32 b ∧ finite32 b) ∨ (∃ b, c = .f64 b ∧ finite64 b) → DecimalAt p s) ∧
  (¬ ((∃ b, c = .f32 b ∧ finite32 b) ∨ (∃ b, c = .f64 b ∧ finite64 b)) → cellText P H ty c = .ok s)

/-- The text at line `r` in column `i`: the name in line 0, the type in line 1, then the cells. -/
def TextAtLine (P : PrintEnv) (H : Heap) (t : Table Addr) (p : Nat) (i : Nat) (ty : ColType) (s : GoStr) : Nat → Prop
  | 0 => t.colNames[i]? = some s
  | 1 => s = ty.name
  | r + 2 => ∃ row cell, t.rows[r]? = some row ∧ row[i]? = some cell ∧ ShownAs P H ty p cell s

/-- The text of a table whose columns line up: the name in brackets, then a line of names, a line of types and a line per row.  Column `i` has in every line a field of `width i`
code points.  Numbers are right-aligned in it, everything else is left-aligned.  In a column of floats the points are at the same place in all lines. -/
def AlignedText (P : PrintEnv) (H : Heap) (t : Table Addr) (s : GoStr) : Prop :=
  ∃ (width prec : Nat → Nat) (lines : List GoStr),
    s = 91 :: t.name ++ gs! "]\n" ++ (lines.map fun l => l ++ [10]).flatten ∧ lines.length = t.rows.length + 2 ∧
    ∀ r line, lines[r]? = some line → ∃ fields, LineOf fields line ∧ fields.length = t.colNames.length ∧
      ∀ i ty, t.colTypes[i]? = some ty → ∃ text field, fields[i]? = some field ∧ FieldOf ty.numeric (width i) text field ∧
        TextAtLine P H t (prec i) i ty text r

end Verif
