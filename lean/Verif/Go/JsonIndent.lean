import Verif.Go.Json

/-!
# Indenting JSON (package encoding/json)

Library code, not in /repo; follows `appendIndent` (encoding/json/indent.go) with prefix "" and indent "\t".
-/

namespace Verif

/-- Whether the text is one JSON value with nothing but white space around it: what the scanner of encoding/json accepts. -/
def jsonValid (s : GoStr) : Bool :=
  match jsonValue (2 * s.length + 2) s with
  | some (_, rest) => jsonSpace rest = []
  | none => false

/-- `appendNewline` (indent.go). -/
def indentNewline (depth : Nat) : GoStr := 10 :: List.replicate depth 9

/-- Where the scanner is: between tokens or in a number or literal, in a string, after a backslash in a string. -/
inductive IndentAt where
  | out
  | str
  | esc

/-- The loop of `appendIndent` over the bytes of a valid text.  `started` is whether a token was seen: white space after the end of the value
(depth 0, nothing open) is kept, other white space is dropped. -/
def indentLoop : IndentAt → Bool → Nat → Bool → GoStr → GoStr
  | _, _, _, _, [] => []
  | .str, needIndent, depth, started, c :: cs =>
    c :: indentLoop (if c = 34 then .out else if c = 92 then .esc else .str) needIndent depth started cs
  | .esc, needIndent, depth, started, c :: cs => c :: indentLoop .str needIndent depth started cs
  | .out, needIndent, depth, started, c :: cs =>
    if c = 32 ∨ c = 9 ∨ c = 10 ∨ c = 13 then
      if started && depth = 0 && !needIndent then c :: indentLoop .out needIndent depth started cs
      else indentLoop .out needIndent depth started cs
    else if c = 125 ∨ c = 93 then
      if needIndent then c :: indentLoop .out false depth true cs
      else indentNewline (depth - 1) ++ c :: indentLoop .out false (depth - 1) true cs
    else
      let depth := if needIndent then depth + 1 else depth
      (if needIndent then indentNewline depth else []) ++
        if c = 123 ∨ c = 91 then c :: indentLoop .out true depth true cs
        else if c = 44 then c :: (indentNewline depth ++ indentLoop .out false depth true cs)
        else if c = 58 then c :: 32 :: indentLoop .out false depth true cs
        else if c = 34 then c :: indentLoop .str false depth true cs
        else c :: indentLoop .out false depth true cs

/-- `json.Indent(&buf, s, "", "\t")`; `none` is an error. -/
def jsonIndent (s : GoStr) : Option GoStr := if jsonValid s then some (indentLoop .out false 0 false s) else none

example : jsonIndent (gs! " {\"a\\\"{\": [1,{ }, []],\"b\":\"c, d\"} ") = some (gs! "{\n\t\"a\\\"{\": [\n\t\t1,\n\t\t{},\n\t\t[]\n\t],\n\t\"b\": \"c, d\"\n} ") := by
  decide +kernel
example : jsonIndent (gs! "{\"a\":1} 2") = none ∧ jsonIndent (gs! "[1,]") = none ∧ jsonIndent (gs! "") = none ∧ jsonIndent (gs! "\"\\x07\"") = none := by decide +kernel

end Verif
