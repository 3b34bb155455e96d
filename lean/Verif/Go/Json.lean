import Verif.Go.Quote
import Verif.Go.FloatConv

/-!
# Decoding JSON (package encoding/json)

Library code, not in /repo; follows encoding/json (scanner.go, decode.go) decoding into a `map[string]interface{}` with `UseNumber`.
Go's limit of 10000 nested values is left out.
-/

namespace Verif

/-- A decoded value: `nil`, `bool`, `json.Number`, `string`, `[]interface{}`, `map[string]interface{}` (with the members in the order of the text). -/
inductive JVal where
  | null
  | bool (b : Bool)
  | num (text : GoStr)
  | str (s : GoStr)
  | arr (elems : List JVal)
  | obj (members : List (GoStr × JVal))
  deriving Repr

/-- Skip white space. -/
def jsonSpace : GoStr → GoStr
  | [] => []
  | c :: cs => if c = 32 ∨ c = 9 ∨ c = 10 ∨ c = 13 then jsonSpace cs else c :: cs

/-- `\uXXXX` after the `\u` (`getu4`, decode.go), with the other half of a surrogate pair if it follows: the bytes and the rest. -/
def jsonHex (s : GoStr) : Option (GoStr × GoStr) :=
  match readHex 4 s 0 with
  | none => none
  | some (r, rest) =>
    if 0xD800 ≤ r ∧ r < 0xDC00 then
      match rest with
      | 92 :: 117 :: s2 =>
        match readHex 4 s2 0 with
        | some (r2, rest2) =>
          if 0xDC00 ≤ r2 ∧ r2 < 0xE000 then some (encodeRune (0x10000 + (r - 0xD800) * 0x400 + (r2 - 0xDC00)), rest2)
          else some (encodeRune 0xFFFD, rest)
        | none => some (encodeRune 0xFFFD, rest)
      | _ => some (encodeRune 0xFFFD, rest)
    else some (encodeRune r, rest)

/-- The escapes after the backslash: the bytes and the rest. -/
def jsonEscape (s : GoStr) : Option (GoStr × GoStr) :=
  match s with
  | [] => none
  | c :: cs =>
    if c = 34 ∨ c = 92 ∨ c = 47 then some ([c], cs)
    else if c = 98 then some ([8], cs)
    else if c = 102 then some ([12], cs)
    else if c = 110 then some ([10], cs)
    else if c = 114 then some ([13], cs)
    else if c = 116 then some ([9], cs)
    else if c = 117 then jsonHex cs
    else none

/-- The characters of a string up to the closing quote: the bytes and the rest.  `n` bounds the number of iterations; every iteration consumes at least one byte. -/
def jsonChars : Nat → GoStr → Option (GoStr × GoStr)
  | 0, _ => none
  | _, [] => none
  | n + 1, c :: cs =>
    if c = 34 then some ([], cs)
    else if c = 92 then
      match jsonEscape cs with
      | none => none
      | some (b, rest) => (jsonChars n rest).map fun (bs, r) => (b ++ bs, r)
    else if c < 32 then none
    else if c < 0x80 then (jsonChars n cs).map fun (bs, r) => (c :: bs, r)
    else
      match decodeRune? (c :: cs) with
      | some (_, w) => (jsonChars n (cs.drop (w - 1))).map fun (bs, r) => ((c :: cs).take w ++ bs, r)
      | none => (jsonChars n cs).map fun (bs, r) => (encodeRune 0xFFFD ++ bs, r)

/-- The digits at the start, at least one. -/
def jsonDigits (s : GoStr) : Option (GoStr × GoStr) :=
  if s.takeWhile FloatFmt.isDigit = [] then none else some (s.takeWhile FloatFmt.isDigit, s.dropWhile FloatFmt.isDigit)

/-- The exponent of a number, if there is one. -/
def jsonExp (s : GoStr) : Option (GoStr × GoStr) :=
  match s with
  | [] => some ([], [])
  | e :: r =>
    if e = 101 ∨ e = 69 then
      match r with
      | [] => none
      | c :: r' =>
        if c = 43 ∨ c = 45 then (jsonDigits r').map fun (ds, rest) => (e :: c :: ds, rest)
        else (jsonDigits (c :: r')).map fun (ds, rest) => (e :: ds, rest)
    else some ([], e :: r)

/-- The fraction of a number, if there is one. -/
def jsonFrac (s : GoStr) : Option (GoStr × GoStr) :=
  match s with
  | [] => some ([], [])
  | c :: r => if c = 46 then (jsonDigits r).map fun (ds, rest) => (46 :: ds, rest) else some ([], c :: r)

/-- The digits before the point: no zeros before other digits. -/
def jsonWhole (s : GoStr) : Option (GoStr × GoStr) :=
  match s with
  | [] => none
  | c :: r => if c = 48 then some ([48], r) else jsonDigits (c :: r)

/-- A number, as its text. -/
def jsonNumber (s : GoStr) : Option (GoStr × GoStr) :=
  let sign := if s.head? = some 45 then [45] else []
  match jsonWhole (s.drop sign.length) with
  | none => none
  | some (whole, r1) =>
    match jsonFrac r1 with
    | none => none
    | some (frac, r2) => (jsonExp r2).map fun (e, r3) => (sign ++ whole ++ frac ++ e, r3)

/-- The text without this prefix. -/
def jsonLiteral : GoStr → GoStr → Option GoStr
  | [], s => some s
  | _ :: _, [] => none
  | p :: ps, c :: cs => if c = p then jsonLiteral ps cs else none

mutual

/-- A value and the rest of the text.  `n` bounds the recursion; every two calls consume at least one byte. -/
def jsonValue : Nat → GoStr → Option (JVal × GoStr)
  | 0, _ => none
  | n + 1, s =>
    match jsonSpace s with
    | [] => none
    | c :: r =>
      if c = 123 then
        match jsonSpace r with
        | 125 :: r' => some (.obj [], r')
        | r' => (jsonMembers n r').map fun (m, rest) => (.obj m, rest)
      else if c = 91 then
        match jsonSpace r with
        | 93 :: r' => some (.arr [], r')
        | r' => (jsonElems n r').map fun (l, rest) => (.arr l, rest)
      else if c = 34 then (jsonChars (r.length + 1) r).map fun (b, rest) => (.str b, rest)
      else if c = 116 then (jsonLiteral (gs! "true") (c :: r)).map fun rest => (.bool true, rest)
      else if c = 102 then (jsonLiteral (gs! "false") (c :: r)).map fun rest => (.bool false, rest)
      else if c = 110 then (jsonLiteral (gs! "null") (c :: r)).map fun rest => (.null, rest)
      else (jsonNumber (c :: r)).map fun (t, rest) => (.num t, rest)

/-- The elements of an array, at least one, up to the closing bracket. -/
def jsonElems : Nat → GoStr → Option (List JVal × GoStr)
  | 0, _ => none
  | n + 1, s =>
    match jsonValue n s with
    | none => none
    | some (v, r) =>
      match jsonSpace r with
      | [] => none
      | c :: r' =>
        if c = 44 then (jsonElems n r').map fun (vs, rest) => (v :: vs, rest)
        else if c = 93 then some ([v], r')
        else none

/-- The members of an object, at least one, up to the closing brace. -/
def jsonMembers : Nat → GoStr → Option (List (GoStr × JVal) × GoStr)
  | 0, _ => none
  | n + 1, s =>
    match jsonSpace s with
    | [] => none
    | q :: r0 =>
      if q = 34 then
        match jsonChars (r0.length + 1) r0 with
        | none => none
        | some (k, r1) =>
          match jsonSpace r1 with
          | [] => none
          | colon :: r2 =>
            if colon = 58 then
              match jsonValue n r2 with
              | none => none
              | some (v, r3) =>
                match jsonSpace r3 with
                | [] => none
                | c :: r4 =>
                  if c = 44 then (jsonMembers n r4).map fun (m, rest) => ((k, v) :: m, rest)
                  else if c = 125 then some ([(k, v)], r4)
                  else none
            else none
      else none

end

/-- `decoder.Decode(&jsonMap)`: the members of the first value in the text, which must be an object (a `null` leaves the map empty); `none` is an error.  Text after the value is not read. -/
def jsonDecode (s : GoStr) : Option (List (GoStr × JVal)) :=
  match jsonValue (2 * s.length + 2) s with
  | some (.obj m, _) => some m
  | some (.null, _) => some []
  | _ => none

/-- `jsonMap[key]`; of two members with the same key the later one counts. -/
def jsonGet (m : List (GoStr × JVal)) (key : GoStr) : Option JVal :=
  match m with
  | [] => none
  | (k, v) :: rest =>
    match jsonGet rest key with
    | some w => some w
    | none => if k = key then some v else none

example : jsonDecode (gs! " {\"a\\u00e9\" : [1, -2.5e+3,true] , \"b\":{}} x") matches some [(_, .arr [.num _, .num _, .bool true]), (_, .obj [])] := by decide +kernel
example : jsonDecode (gs! "{\"a\":\"\\x01\"}") matches none := by decide +kernel
example : jsonDecode (gs! "{\"a\":01}") matches none := by decide +kernel
example : jsonDecode (gs! "{\"a\":\"\\ud83d\\ude00\"}") matches some [(_, .str [0xF0, 0x9F, 0x98, 0x80])] := by decide +kernel

end Verif
