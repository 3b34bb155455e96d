import Verif.Go.Utf8
import Verif.Model.Parser

/-!
# Package encoding/csv: the Writer

Library code, not in /repo; modelled from its source, with the default settings (comma, no CRLF).
-/

namespace Verif

/-- `(*Writer).fieldNeedsQuotes`: a special character, the text `\.`, or white space at the start. -/
def csvNeedsQuotes (field : GoStr) : Bool :=
  if field = [] then false
  else if field = [92, 46] then true
  else if field.any fun c => c = 10 || c = 13 || c = 34 || c = 44 then true
  else
    match decodeRune? field with
    | some (r, _) => isSpaceRune r
    | none => false

/-- The text of a field between quotes: quotes are written twice. -/
def csvDouble : GoStr → GoStr
  | [] => []
  | c :: cs => if c = 34 then 34 :: 34 :: csvDouble cs else c :: csvDouble cs

/-- One field of `(*Writer).Write`. -/
def csvField (field : GoStr) : GoStr := if csvNeedsQuotes field then 34 :: csvDouble field ++ [34] else field

/-- The fields of a record with commas between them. -/
def csvFields : List GoStr → GoStr
  | [] => []
  | [f] => csvField f
  | f :: fs => csvField f ++ 44 :: csvFields fs

/-- `(*Writer).Write`: the record and a newline. -/
def csvRecord (record : List GoStr) : GoStr := csvFields record ++ [10]

end Verif
