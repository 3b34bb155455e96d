import Verif.Go.Basic

/-!
# Specification: reading CSV

Comma separated values as in RFC 4180 and as Go's `csv.Reader` reads them with its default settings: records end at a newline; a field in quotes may hold commas, newlines and, written
twice, quotes; a quote in a field without quotes is an error; CR LF counts as a newline, also between quotes; blank lines are skipped; all records have the same number of fields.
-/

namespace Verif

/-- CR LF replaced by LF. -/
def crlf : GoStr → GoStr
  | [] => []
  | [c] => [c]
  | c :: d :: cs => if c = 13 ∧ d = 10 then 10 :: crlf cs else c :: crlf (d :: cs)

/-- Where a reader is: at the start of a line, at the start of another field, in a field without quotes, in one with quotes, or after a quote in such a field. -/
inductive CsvState where
  | line | field | plain | quoted | quote

/-- Read the text, with the fields of the current record and the text of the current field so far. -/
def csvScan : CsvState → List GoStr → GoStr → GoStr → Option (List (List GoStr))
  | .line, _, _, [] => some []
  | .line, _, _, c :: cs =>
    if c = 10 then csvScan .line [] [] cs
    else if c = 34 then csvScan .quoted [] [] cs
    else if c = 44 then csvScan .field [[]] [] cs
    else csvScan .plain [] [c] cs
  | .field, fs, _, [] => some [fs ++ [[]]]
  | .field, fs, _, c :: cs =>
    if c = 10 then (csvScan .line [] [] cs).map fun rs => (fs ++ [[]]) :: rs
    else if c = 34 then csvScan .quoted fs [] cs
    else if c = 44 then csvScan .field (fs ++ [[]]) [] cs
    else csvScan .plain fs [c] cs
  | .plain, fs, f, [] => some [fs ++ [f]]
  | .plain, fs, f, c :: cs =>
    if c = 10 then (csvScan .line [] [] cs).map fun rs => (fs ++ [f]) :: rs
    else if c = 44 then csvScan .field (fs ++ [f]) [] cs
    else if c = 34 then none
    else csvScan .plain fs (f ++ [c]) cs
  | .quoted, _, _, [] => none
  | .quoted, fs, f, c :: cs => if c = 34 then csvScan .quote fs f cs else csvScan .quoted fs (f ++ [c]) cs
  | .quote, fs, f, [] => some [fs ++ [f]]
  | .quote, fs, f, c :: cs =>
    if c = 34 then csvScan .quoted fs (f ++ [34]) cs
    else if c = 44 then csvScan .field (fs ++ [f]) [] cs
    else if c = 10 then (csvScan .line [] [] cs).map fun rs => (fs ++ [f]) :: rs
    else none

/-- All records have as many fields as the first. -/
def sameLengths : List (List GoStr) → Bool
  | [] => true
  | r :: rs => rs.all fun r' => r'.length = r.length

/-- Read CSV: the records, or `none` if the text is no CSV. -/
def csvRead (s : GoStr) : Option (List (List GoStr)) :=
  match csvScan .line [] [] (crlf s) with
  | none => none
  | some rs => if sameLengths rs then some rs else none

/-- The records that are not written as a blank line: those with two or more fields, and those whose only field is not empty. -/
def csvVisible (rs : List (List GoStr)) : List (List GoStr) := rs.filter fun r => decide (r ≠ [] ∧ r ≠ [[]])

end Verif
