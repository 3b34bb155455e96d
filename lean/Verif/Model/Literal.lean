import Verif.Go.Strconv
import Verif.Model.Types

/-!
# Integer tokens of the text format
-/

namespace Verif

namespace IntKind

/-- The `bitSize` argument in `getRowSlice` (parser.go:922-1165); `strconv.IntSize` is 64. -/
def bits : IntKind → Nat
  | int | int64 | uint | uint64 => 64
  | int32 | uint32 => 32
  | int16 | uint16 => 16
  | int8 | uint8 => 8

/-- Whether `parseInt` or `parseUint` is called (parser.go:922-1165). -/
def signed : IntKind → Bool
  | int | int8 | int16 | int32 | int64 => true
  | _ => false

end IntKind

/-- `\d` and `[0-9]`. -/
def isDec (c : UInt8) : Bool := 48 ≤ c && c ≤ 57
/-- `[0-1]`. -/
def isBin (c : UInt8) : Bool := 48 ≤ c && c ≤ 49
/-- `[0-7]`. -/
def isOct (c : UInt8) : Bool := 48 ≤ c && c ≤ 55
/-- `[0-9A-Fa-f]`. -/
def isHex (c : UInt8) : Bool := isDec c || (65 ≤ c && c ≤ 70) || (97 ≤ c && c ≤ 102)

/-- One or more characters of a class at the start of the text: the longest match and the rest. -/
def scanSome (p : UInt8 → Bool) (l : GoStr) : Option (GoStr × GoStr) :=
  if l.takeWhile p = [] then none else some (l.takeWhile p, l.dropWhile p)

/-- `(0[bB])[0-1]+` and the like: `0`, one of two letters, digits. -/
def scanPrefixed (letter letter' : UInt8) (p : UInt8 → Bool) (l : GoStr) : Option (GoStr × GoStr) :=
  match l with
  | 48 :: c :: cs =>
    if c = letter ∨ c = letter' then (scanSome p cs).map fun (ds, rest) => (48 :: c :: ds, rest) else none
  | _ => none

/-- `[+-]?\d+` (`minus`) or `[+]?\d+`. -/
def scanSigned (minus : Bool) (l : GoStr) : Option (GoStr × GoStr) :=
  match l with
  | [] => none
  | c :: cs =>
    if c = 43 ∨ (minus ∧ c = 45) then (scanSome isDec cs).map fun (ds, rest) => (c :: ds, rest)
    else scanSome isDec l

/-- `intRegexp` (`minus`) or `uintRegexp` (parser.go:69-87): the alternatives are tried in order at the start of the text; the result is the
token and the rest of the text. -/
def scanInt (minus : Bool) (l : GoStr) : Option (GoStr × GoStr) :=
  match scanPrefixed 98 66 isBin l with
  | some r => some r
  | none =>
    match scanPrefixed 111 79 isOct l with
    | some r => some r
    | none =>
      match scanPrefixed 120 88 isHex l with
      | some r => some r
      | none => scanSigned minus l

/-- `parseInt` (parser.go:1395-1417). -/
def parseInt (s : GoStr) (bits : Nat) : Out Int :=
  match s with
  | [] => .err .syntaxErr
  | 48 :: c :: cs =>
    if c = 98 ∨ c = 66 then strconvParseInt cs 2 bits
    else if c = 111 ∨ c = 79 then strconvParseInt cs 8 bits
    else if c = 120 ∨ c = 88 then strconvParseInt cs 16 bits
    else strconvParseInt s 8 bits
  | _ => strconvParseInt s 10 bits

/-- `parseUint` (parser.go:1420-1442). -/
def parseUint (s : GoStr) (bits : Nat) : Out Nat :=
  match s with
  | [] => .err .syntaxErr
  | 48 :: c :: cs =>
    if c = 98 ∨ c = 66 then strconvParseUint cs 2 bits
    else if c = 111 ∨ c = 79 then strconvParseUint cs 8 bits
    else if c = 120 ∨ c = 88 then strconvParseUint cs 16 bits
    else strconvParseUint s 8 bits
  | _ => strconvParseUint s 10 bits

/-- The integer cases of `getRowSlice` (parser.go:906-1165): find the token at the start of the text, convert it. -/
def readInt (k : IntKind) (l : GoStr) : Out (Int × GoStr) :=
  match scanInt k.signed l with
  | none => .err .syntaxErr
  | some (tok, rest) =>
    if k.signed then (parseInt tok k.bits).bind fun v => .ok (v, rest)
    else (parseUint tok k.bits).bind fun v => .ok ((v : Int), rest)

end Verif
