import Verif.Go.Utf8

/-!
# Quoting (package strconv)

Library code, not in /repo; follows strconv/quote.go.
-/

namespace Verif

/-- A hexadecimal digit, lower case. -/
def hexDigit (n : Nat) : UInt8 := if n < 10 then UInt8.ofNat (48 + n) else UInt8.ofNat (87 + n)

/-- The last `w` hexadecimal digits of `n`. -/
def hexDigits : Nat → Nat → GoStr
  | 0, _ => []
  | w + 1, n => hexDigit (n / 16 ^ w % 16) :: hexDigits w n

/-- `strconv.IsPrint`.  Exact up to U+00FF; above, it is table lookup: an arbitrary function `hi` here. -/
def isPrint (hi : Nat → Bool) (r : Nat) : Bool :=
  if r ≤ 0xFF then decide ((0x20 ≤ r ∧ r < 0x7F) ∨ (0xA1 ≤ r ∧ r ≠ 0xAD)) else hi r

/-- `appendEscapedRune` (strconv/quote.go) for a valid code point; `q` is the quote character, 92 the backslash. -/
def escapeRune (hi : Nat → Bool) (q r : Nat) : GoStr :=
  if r = q ∨ r = 92 then [92, UInt8.ofNat r]
  else if isPrint hi r then encodeRune r
  else if r = 7 then [92, 97]
  else if r = 8 then [92, 98]
  else if r = 12 then [92, 102]
  else if r = 10 then [92, 110]
  else if r = 13 then [92, 114]
  else if r = 9 then [92, 116]
  else if r = 11 then [92, 118]
  else if r < 0x20 ∨ r = 0x7F then 92 :: 120 :: hexDigits 2 r
  else if r < 0x10000 then 92 :: 117 :: hexDigits 4 r
  else 92 :: 85 :: hexDigits 8 r

/-- The loop of `appendQuotedWith` (strconv/quote.go) with quote `"`; the number counts the bytes of the current code point still to be skipped. -/
def quoteLoop (hi : Nat → Bool) : Nat → GoStr → GoStr
  | _, [] => []
  | k + 1, _ :: cs => quoteLoop hi k cs
  | 0, c :: cs =>
    match decodeRune? (c :: cs) with
    | none => 92 :: 120 :: hexDigits 2 c.toNat ++ quoteLoop hi 0 cs
    | some (r, w) => escapeRune hi 34 r ++ quoteLoop hi (w - 1) cs

/-- `strconv.Quote(s)`. -/
def strconvQuote (hi : Nat → Bool) (s : GoStr) : GoStr := 34 :: quoteLoop hi 0 s ++ [34]

/-- `strconv.QuoteRune(r)`. -/
def strconvQuoteRune (hi : Nat → Bool) (r : Int) : GoStr :=
  39 :: escapeRune hi 39 (if 0 ≤ r ∧ ValidRune r.toNat then r.toNat else 0xFFFD) ++ [39]

/-- `unhex` (strconv/quote.go). -/
def unhex (c : UInt8) : Option Nat :=
  if 48 ≤ c ∧ c ≤ 57 then some (c.toNat - 48)
  else if 97 ≤ c ∧ c ≤ 102 then some (c.toNat - 87)
  else if 65 ≤ c ∧ c ≤ 70 then some (c.toNat - 55)
  else none

/-- The loop of `UnquoteChar` over hexadecimal digits. -/
def readHex : Nat → GoStr → Nat → Option (Nat × GoStr)
  | 0, s, v => some (v, s)
  | _ + 1, [], _ => none
  | n + 1, c :: cs, v =>
    match unhex c with
    | some x => readHex n cs (v * 16 + x)
    | none => none

/-- An octal digit. -/
def octal (c : UInt8) : Option Nat := if 48 ≤ c ∧ c ≤ 55 then some (c.toNat - 48) else none

/-- The escapes of `UnquoteChar` after the backslash. -/
def unescape (quote : UInt8) (s : GoStr) : Option (Nat × Bool × GoStr) :=
  match s with
  | [] => none
  | c :: cs =>
    if c = 97 then some (7, false, cs)
    else if c = 98 then some (8, false, cs)
    else if c = 102 then some (12, false, cs)
    else if c = 110 then some (10, false, cs)
    else if c = 114 then some (13, false, cs)
    else if c = 116 then some (9, false, cs)
    else if c = 118 then some (11, false, cs)
    else if c = 120 then (readHex 2 cs 0).map fun (v, rest) => (v, false, rest)
    else if c = 117 ∨ c = 85 then
      match readHex (if c = 117 then 4 else 8) cs 0 with
      | some (v, rest) => if ValidRune v then some (v, true, rest) else none
      | none => none
    else if 48 ≤ c ∧ c ≤ 55 then
      match cs with
      | d :: e :: rest =>
        match octal d, octal e with
        | some x, some y =>
          let v := ((c.toNat - 48) * 8 + x) * 8 + y
          if 255 < v then none else some (v, false, rest)
        | _, _ => none
      | _ => none
    else if c = 92 then some (92, false, cs)
    else if c = 39 ∨ c = 34 then (if c ≠ quote then none else some (c.toNat, false, cs))
    else none

/-- `strconv.UnquoteChar(s, quote)` for `quote` one of `'` and `"`: value, whether it needs more than one byte, rest of the text. -/
def unquoteChar (s : GoStr) (quote : UInt8) : Option (Nat × Bool × GoStr) :=
  match s with
  | [] => none
  | c :: cs =>
    if c = quote then none
    else if 0x80 ≤ c then
      match decodeRune? (c :: cs) with
      | some (r, w) => some (r, true, cs.drop (w - 1))
      | none => some (0xFFFD, true, cs)
    else if c ≠ 92 then some (c.toNat, false, cs)
    else unescape quote cs

/-- What `Unquote` appends for a character. -/
def charBytes (r : Nat) (multibyte : Bool) : GoStr :=
  if r < 0x80 ∨ multibyte = false then [UInt8.ofNat r] else encodeRune r

/-- The loop of `unquote` (strconv/quote.go) in a double-quoted string: the bytes, and the text after the closing quote.
`n` bounds the number of iterations; every iteration consumes at least one byte. -/
def unquoteLoop : Nat → GoStr → Option (GoStr × GoStr)
  | 0, _ => none
  | _, [] => none
  | n + 1, c :: cs =>
    if c = 34 then some ([], cs)
    else if c = 10 then none
    else
      match unquoteChar (c :: cs) 34 with
      | none => none
      | some (r, multibyte, rem) => (unquoteLoop n rem).map fun (bs, rest) => (charBytes r multibyte ++ bs, rest)

/-- `strconv.Unquote(s)` for a text that begins with a double quote.  The fast path for texts without escapes gives the same result and is left out. -/
def strconvUnquote (s : GoStr) : Option GoStr :=
  match s with
  | 34 :: cs =>
    match unquoteLoop (cs.length + 1) cs with
    | some (bs, []) => some bs
    | _ => none
  | _ => none

example : strconvQuote (fun _ => true) (gs! "a\"é\n\x01" ++ [0xFF]) = gs! "\"a\\\"é\\n\\x01\\xff\"" := by decide +kernel
example : strconvUnquote (gs! "\"a\\\"é\\n\\x01\\xff\\u20aC\\101\"") = some (gs! "a\"é\n\x01" ++ [0xFF] ++ gs! "€A") := by decide +kernel
example : strconvUnquote (gs! "\"a\\'\"") = none := by decide +kernel

end Verif
