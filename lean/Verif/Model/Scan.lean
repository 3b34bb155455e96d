import Verif.Go.Quote
import Verif.Model.Literal
import Verif.Model.Core
import Verif.Go.Float

/-!
# Reading one cell of the text format

The regular expressions of the parser are written as functions on bytes that give the text matched and the text after it.
A line contains no newline, so "any character" (`.`) is any byte.
-/

namespace Verif

/-- The body of `stringRegexp` (parser.go:118) after the opening quote: up to and including the first `"` (34) not preceded by `\` (92).
`\\.` consumes a whole code point; the further bytes of it are neither quotes nor backslashes, so skipping one byte gives the same match. -/
def scanQuoted : GoStr → Option (GoStr × GoStr)
  | [] => none
  | c :: cs =>
    if c = 34 then some ([34], cs)
    else if c = 92 then
      match cs with
      | [] => none
      | d :: ds => (scanQuoted ds).map fun (tok, rest) => (92 :: d :: tok, rest)
    else (scanQuoted cs).map fun (tok, rest) => (c :: tok, rest)

/-- Case "string" of `getRowSlice` (parser.go:897-909). -/
def readString (l : GoStr) : Out (GoStr × GoStr) :=
  match l with
  | 34 :: cs =>
    match scanQuoted cs with
    | none => .err .syntaxErr
    | some (tok, rest) =>
      match strconvUnquote (34 :: tok) with
      | none => .err .syntaxErr
      | some s => .ok (s, rest)
  | _ => .err .syntaxErr

/-- `[0-9A-Za-z_]`, the word characters of `\b`. -/
def isWordChar (c : UInt8) : Bool := isDec c || (65 ≤ c && c ≤ 90) || (97 ≤ c && c ≤ 122) || c = 95

/-- The text begins with the word `w`, which ends there (`\b`). -/
def scanWord (w l : GoStr) : Option GoStr :=
  if l.take w.length = w then
    match l.drop w.length with
    | [] => some []
    | c :: cs => if isWordChar c then none else some (c :: cs)
  else none

/-- Case "bool" of `getRowSlice` (parser.go:910-920), with `boolRegexp` (parser.go:120). -/
def readBool (l : GoStr) : Out (Bool × GoStr) :=
  match scanWord (gs! "true") l with
  | some rest => .ok (true, rest)
  | none =>
    match scanWord (gs! "false") l with
    | some rest => .ok (false, rest)
    | none => .err .syntaxErr

/-- Split at the first `'` (39): the text before it and after it. -/
def splitFirst : GoStr → Option (GoStr × GoStr)
  | [] => none
  | c :: cs => if c = 39 then some ([], cs) else (splitFirst cs).map fun (a, b) => (c :: a, b)

/-- Split at the last `'` (39): the text before it and after it. -/
def splitLast : GoStr → Option (GoStr × GoStr)
  | [] => none
  | c :: cs =>
    match splitLast cs with
    | some (a, b) => some (c :: a, b)
    | none => if c = 39 then some ([], cs) else none

/-- Width in bytes of the first character, as the regular expression engine counts it: 1 for an invalid byte. -/
def charWidth (l : GoStr) : Nat :=
  match decodeRune? l with
  | some (_, w) => w
  | none => 1

/-- The third alternative of `runeRegexp` after the opening quote, `([^']\\[xuU].*)'`: one character, `\`, one of `xuU`, then everything up to
the last `'`. -/
def runeLong (l : GoStr) : Option (GoStr × GoStr) :=
  match l with
  | [] => none
  | c :: cs =>
    if c = 39 then none
    else
      let w := charWidth (c :: cs)
      match (c :: cs).drop w with
      | 92 :: x :: more =>
        if x = 120 ∨ x = 117 ∨ x = 85 then
          (splitLast more).map fun (a, b) => ((c :: cs).take w ++ 92 :: x :: a, b)
        else none
      | _ => none

/-- The alternatives of `runeRegexp` (parser.go:124) after the opening quote, in order: content and rest. -/
def runeBody (l : GoStr) : Option (GoStr × GoStr) :=
  match l with
  | 92 :: 110 :: 39 :: rest => some ([92, 110], rest)
  | 92 :: 39 :: 39 :: rest => some ([92, 39], rest)
  | _ =>
    match runeLong l with
    | some r => some r
    | none => splitFirst l

/-- `runeRegexp` is not anchored: the match begins at the first `'` of the text. -/
def scanRune (l : GoStr) : Option (GoStr × GoStr) :=
  match splitFirst l with
  | none => none
  | some (_, cs) => runeBody cs

/-- `parseRune` (parser.go:1367-1392). -/
def parseRune (runeText : GoStr) : Out Int :=
  match unquoteChar runeText 39 with
  | none => .err .syntaxErr
  | some (v, _, tail) => if tail.length > 0 then .err .syntaxErr else .ok (v : Int)

/-- Case "rune" of `getRowSlice` (parser.go:1159-1173). -/
def readRune (l : GoStr) : Out (Int × GoStr) :=
  match scanRune l with
  | none => .err .syntaxErr
  | some (content, rest) =>
    if content.length + 2 < 3 then .err .syntaxErr
    else (parseRune content).bind fun v => .ok (v, rest)

/-- Formatting and parsing of floats by strconv: not modelled, arbitrary functions.  `fmt32` and `fmt64` are `FormatFloat` with format 'f' and
precision -1, `prec32` and `prec64` with the given precision; `parse32` and `parse64` are `ParseFloat`, where `none` is an error. -/
structure FloatText where
  fmt32 : BitVec 32 → GoStr
  fmt64 : BitVec 64 → GoStr
  parse32 : GoStr → Option (BitVec 32)
  parse64 : GoStr → Option (BitVec 64)
  prec32 : BitVec 32 → Nat → GoStr
  prec64 : BitVec 64 → Nat → GoStr

/-- `[0-9]+(\.[0-9]*)?|\.[0-9]+`. -/
def scanMantissa (l : GoStr) : Option (GoStr × GoStr) :=
  match scanSome isDec l with
  | some (ds, 46 :: r) => some (ds ++ 46 :: r.takeWhile isDec, r.dropWhile isDec)
  | some (ds, r) => some (ds, r)
  | none =>
    match l with
    | 46 :: r => (scanSome isDec r).map fun (ds, rest) => (46 :: ds, rest)
    | _ => none

/-- `([eE][-+]?[0-9]+)?`. -/
def scanExponent (l : GoStr) : GoStr × GoStr :=
  match l with
  | e :: r =>
    if e = 101 ∨ e = 69 then
      match r with
      | s :: r' =>
        if s = 43 ∨ s = 45 then
          match scanSome isDec r' with
          | some (ds, rest) => (e :: s :: ds, rest)
          | none => ([], l)
        else
          match scanSome isDec r with
          | some (ds, rest) => (e :: ds, rest)
          | none => ([], l)
      | [] => ([], l)
    else ([], l)
  | [] => ([], l)

/-- `[-+]?mantissa exponent`. -/
def scanNumber (l : GoStr) : Option (GoStr × GoStr) :=
  let (sign, l1) : GoStr × GoStr :=
    match l with
    | c :: cs => if c = 43 ∨ c = 45 then ([c], cs) else ([], l)
    | [] => ([], l)
  (scanMantissa l1).map fun (m, r) => (sign ++ m ++ (scanExponent r).1, (scanExponent r).2)

/-- `[Nn][Aa][Nn]` anywhere in the text: the three letters and what follows. -/
def scanNaN : GoStr → Option (GoStr × GoStr)
  | [] => none
  | a :: cs =>
    match cs with
    | b :: c :: rest =>
      if (a = 78 ∨ a = 110) ∧ (b = 65 ∨ b = 97) ∧ (c = 78 ∨ c = 110) then some ([a, b, c], rest) else scanNaN cs
    | _ => none

/-- `floatRegexp` (parser.go:142): a number at the start, else the first "nan". -/
def scanFloat (l : GoStr) : Option (GoStr × GoStr) :=
  match scanNumber l with
  | some r => some r
  | none => scanNaN l

/-- Case "float32" of `getRowSlice` (parser.go:1191-1206). -/
def readFloat32 (F : FloatText) (l : GoStr) : Out (BitVec 32 × GoStr) :=
  match scanFloat l with
  | none => .err .syntaxErr
  | some (tok, rest) =>
    match F.parse32 tok with
    | none => .err .syntaxErr
    | some b => if isNaN32 b ∧ tok ≠ (gs! "NaN") then .err .syntaxErr else .ok (b, rest)

/-- Case "float64" of `getRowSlice` (parser.go:1207-1221). -/
def readFloat64 (F : FloatText) (l : GoStr) : Out (BitVec 64 × GoStr) :=
  match scanFloat l with
  | none => .err .syntaxErr
  | some (tok, rest) =>
    match F.parse64 tok with
    | none => .err .syntaxErr
    | some b => if isNaN64 b ∧ tok ≠ (gs! "NaN") then .err .syntaxErr else .ok (b, rest)

/-- `\s` of a regular expression. -/
def isWhite (c : UInt8) : Bool := c = 9 || c = 10 || c = 12 || c = 13 || c = 32

/-- Split at every white character. -/
def splitEach : GoStr → List GoStr
  | [] => [[]]
  | c :: cs =>
    if isWhite c then [] :: splitEach cs
    else
      match splitEach cs with
      | p :: ps => (c :: p) :: ps
      | [] => [[c]]

/-- `parseUint(el, 8)` for every element of a slice. -/
def parseBytes : List GoStr → Out (List UInt8)
  | [] => .ok []
  | p :: ps => (parseUint p 8).bind fun v => (parseBytes ps).bind fun vs => .ok (UInt8.ofNat v :: vs)

/-- Cases "[]uint8" and "[]byte" of `getRowSlice` (parser.go:939-985), with `uintSliceRegexp` (parser.go:90-91) and `splitSliceString`
(parser.go:1310-1317).  The regular expression wants numbers separated by exactly one white character up to the first `]`, the code then splits at
white space and parses each part; since an empty part or one that is not a number is an error in either step, splitting at every white character
and parsing the parts accepts the same texts with the same values. -/
def readBytes (l : GoStr) : Out (List UInt8 × GoStr) :=
  match l with
  | 91 :: cs =>
    let content := cs.takeWhile (fun c => c ≠ 93)
    match cs.dropWhile (fun c => c ≠ 93) with
    | [] => .err .syntaxErr
    | _ :: rest =>
      if content.length = 0 then .ok ([], rest)
      else (parseBytes (splitEach content)).bind fun v => .ok (v, rest)
  | _ => .err .syntaxErr

/-- `[a-zA-Z_]`. -/
def isNameStart (c : UInt8) : Bool := (65 ≤ c && c ≤ 90) || (97 ≤ c && c ≤ 122) || c = 95
/-- `[a-zA-Z0-9_]`. -/
def isNameChar (c : UInt8) : Bool := isNameStart c || isDec c

/-- `[a-zA-Z_][a-zA-Z0-9_]*`: the longest match and the rest. -/
def scanName (l : GoStr) : Option (GoStr × GoStr) :=
  match l with
  | c :: cs => if isNameStart c then some (c :: cs.takeWhile isNameChar, cs.dropWhile isNameChar) else none
  | [] => none

/-- `tableNameRegexp` (parser.go:146, 157), at the start of the text: the name between the brackets and the rest. -/
def scanTableName (l : GoStr) : Option (GoStr × GoStr) :=
  match l with
  | 91 :: cs =>
    match scanName cs with
    | some (n, 93 :: rest) => some (n, rest)
    | _ => none
  | _ => none

/-- Case "*Table" of `getRowSlice` (parser.go:1222-1244): the table for the cell (its parent is set by the caller) and the rest.
`strings.Trim(textFound, "[]")` is the name, which contains no brackets. -/
def readTable (l : GoStr) : Out (Table Nat × GoStr) :=
  match scanTableName l with
  | none =>
    match l with
    | 91 :: 93 :: rest => .ok (newNilTable, rest)
    | _ => .err .syntaxErr
  | some (n, rest) =>
    match Table.newTable n with
    | .ok t => .ok (t, rest)
    | .err _ => .err .syntaxErr
    | .panic => .panic

/-- A sequence of character classes at the start of the text. -/
def scanClasses : List (UInt8 → Bool) → GoStr → Option (GoStr × GoStr)
  | [], l => some ([], l)
  | _ :: _, [] => none
  | p :: ps, c :: cs => if p c then (scanClasses ps cs).map fun (a, b) => (c :: a, b) else none

/-- `\d{4}-\d{2}-\d{2}T\d{2}:\d{2}:\d{2}`. -/
def timeClasses : List (UInt8 → Bool) :=
  [isDec, isDec, isDec, isDec, (· = 45), isDec, isDec, (· = 45), isDec, isDec, (· = 84), isDec, isDec, (· = 58), isDec, isDec, (· = 58), isDec, isDec]

/-- `Z|([+-]\d{2}:\d{2})`. -/
def scanZone (l : GoStr) : Option (GoStr × GoStr) :=
  match l with
  | 90 :: rest => some ([90], rest)
  | _ => scanClasses [(fun c => c = 43 || c = 45), isDec, isDec, (· = 58), isDec, isDec] l

/-- `rfc3339TimePattern` (parser.go:154) at the start of the text. -/
def scanTimeHere (l : GoStr) : Option (GoStr × GoStr) :=
  match scanClasses timeClasses l with
  | none => none
  | some (a, r) =>
    let withFrac :=
      match scanClasses ((· = 46) :: List.replicate 9 isDec) r with
      | some (f, r') => (scanZone r').map fun (z, rest) => (a ++ f ++ z, rest)
      | none => none
    match withFrac with
    | some x => some x
    | none => (scanZone r).map fun (z, rest) => (a ++ z, rest)

/-- The pattern is not anchored: the first place where it matches. -/
def scanTime : GoStr → Option (GoStr × GoStr)
  | [] => none
  | c :: cs =>
    match scanTimeHere (c :: cs) with
    | some r => some r
    | none => scanTime cs

/-- Case "time.Time" of `getRowSlice` (parser.go:1245-1256).  `parse` is `time.Parse(time.RFC3339, …)`, not modelled. -/
def readTime (parse : GoStr → Option GoTime) (l : GoStr) : Out (GoTime × GoStr) :=
  match scanTime l with
  | none => .err .syntaxErr
  | some (tok, rest) =>
    match parse tok with
    | none => .err .syntaxErr
    | some t => .ok (t, rest)

example : readString (gs! "\"a\\\"b\" 5") = .ok (gs! "a\"b", gs! " 5") := by decide +kernel
example : readBool (gs! "true5") = .err .syntaxErr ∧ readBool (gs! "true 5") = .ok (true, gs! " 5") := by decide +kernel
example : readRune (gs! "'\\n' 'x'") = .ok (10, gs! " 'x'") := by decide +kernel
example : readRune (gs! "junk '\\'' 'x'") = .ok (39, gs! " 'x'") := by decide +kernel
example : scanFloat (gs! "-1.5e3x") = some (gs! "-1.5e3", gs! "x") ∧ scanFloat (gs! "junk nAn 5") = some (gs! "nAn", gs! " 5") ∧
    scanFloat (gs! "+Inf") = none := by decide +kernel
example : readBytes (gs! "[1 0x10 255] 7") = .ok ([1, 16, 255], gs! " 7") ∧ readBytes (gs! "[]") = .ok ([], []) := by decide +kernel
example : scanTime (gs! "x2020-01-02T03:04:05.123456789+10:00 y") = some (gs! "2020-01-02T03:04:05.123456789+10:00", gs! " y") := by decide +kernel

end Verif
