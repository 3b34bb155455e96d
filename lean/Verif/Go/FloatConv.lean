import Verif.Go.Strconv
import Verif.Go.Float

/-!
# Conversion of floats to and from text (package strconv)

Library code, not in /repo.  `ParseFloat` and `FormatFloat` are modelled by what their documentation says of them: `ParseFloat` returns the nearest float,
ties to even; `FormatFloat` with precision -1 writes the smallest number of digits that are read back as the same float (the digits nearest to
the float among those, as `roundShortest` in strconv/ftoa.go finds them), and with a precision the decimal nearest to the float, ties to even.

All finite floats of a format are multiples of its smallest positive float.  A finite float without its sign is here the natural number of its bits,
and its value the natural number `units`.
-/

namespace Verif

/-- A binary floating point format. -/
structure FloatFmt where
  /-- bits of the mantissa that are stored -/
  mant : Nat
  /-- the smallest positive float is 2^-scale -/
  scale : Nat
  /-- the bits of infinity -/
  inf : Nat
  /-- more digits than any float has before the point -/
  maxDigits : Nat

/-- `float64`. -/
def FloatFmt.f64 : FloatFmt := { mant := 52, scale := 1074, inf := 2047 * 2 ^ 52, maxDigits := 310 }
/-- `float32`. -/
def FloatFmt.f32 : FloatFmt := { mant := 23, scale := 149, inf := 255 * 2 ^ 23, maxDigits := 40 }

namespace FloatFmt

/-- The value of a finite float, as a multiple of the smallest positive float. -/
def units (f : FloatFmt) (b : Nat) : Nat :=
  if b / 2 ^ f.mant = 0 then b % 2 ^ f.mant else (b % 2 ^ f.mant + 2 ^ f.mant) * 2 ^ (b / 2 ^ f.mant - 1)

/-- The number of bits by which a number of units is too long for a mantissa. -/
def shift (f : FloatFmt) (q : Nat) : Nat := if q < 2 ^ (f.mant + 1) then 0 else q.log2 - f.mant

/-- The float nearest to `n / d` units, ties to even; it may be that of infinity or above, if the value is too great. -/
def nearest (f : FloatFmt) (n d : Nat) : Nat :=
  let s := f.shift (n / d)
  let m := n / d / 2 ^ s
  let b := s * 2 ^ f.mant + m
  let rest := n - m * 2 ^ s * d
  if 2 * rest < 2 ^ s * d then b
  else if 2 ^ s * d < 2 * rest then b + 1
  else if b % 2 = 0 then b
  else b + 1

/-! ## Parsing -/

/-- The value of decimal digits. -/
def decValue (ds : GoStr) : Nat := ds.foldl (fun v c => 10 * v + (c.toNat - 48)) 0

/-- The value of the digits of an exponent: digits beyond 10000 are ignored (`readFloat`, strconv/atof.go). -/
def expValue (ds : GoStr) : Nat := ds.foldl (fun v c => if v < 10000 then 10 * v + (c.toNat - 48) else v) 0

/-- A decimal digit. -/
def isDigit (c : UInt8) : Bool := 48 ≤ c && c ≤ 57

/-- The exponent after the mantissa, up to the end of the text; `none` is a syntax error. -/
def readExponent (l : GoStr) : Option Int :=
  match l with
  | [] => some 0
  | e :: r =>
    if e = 101 ∨ e = 69 then
      match r with
      | 43 :: ds => if ds ≠ [] ∧ ds.all isDigit then some (expValue ds) else none
      | 45 :: ds => if ds ≠ [] ∧ ds.all isDigit then some (-(expValue ds : Int)) else none
      | ds => if ds ≠ [] ∧ ds.all isDigit then some (expValue ds) else none
    else none

/-- A decimal number without sign: its digits as a number, and the power of ten by which to multiply them. -/
def readDecimal (l : GoStr) : Option (Nat × Int) :=
  let whole := l.takeWhile isDigit
  match l.dropWhile isDigit with
  | 46 :: r =>
    let frac := r.takeWhile isDigit
    if whole ++ frac = [] then none
    else (readExponent (r.dropWhile isDigit)).map fun e => (decValue (whole ++ frac), e - frac.length)
  | r => if whole = [] then none else (readExponent r).map fun e => (decValue whole, e)

/-- The float nearest to `d * 10^e`; `none` is the range error. -/
def ofDecimal (f : FloatFmt) (d : Nat) (e : Int) : Option Nat :=
  let b := if 0 ≤ e then f.nearest (d * 10 ^ e.toNat * 2 ^ f.scale) 1 else f.nearest (d * 2 ^ f.scale) (10 ^ (-e).toNat)
  if b < f.inf then some b else none

/-- The letter in lower case. -/
def lowerByte (c : UInt8) : UInt8 := if 65 ≤ c ∧ c ≤ 90 then c + 32 else c

/-- The sign at the start: whether there is one, whether it is a minus, and the rest. -/
def splitSign (s : GoStr) : Bool × Bool × GoStr :=
  match s with
  | 43 :: r => (true, false, r)
  | 45 :: r => (true, true, r)
  | _ => (false, false, s)

/-- `ParseFloat`: whether there is a minus sign, and the float without the sign; `none` is an error.  A NaN is written without sign.
Simplification: hexadecimal floats and underscores are refused; the code does not pass such texts (they are found by `floatRegexp`, parser.go:142, or
come from `FormatFloat`). -/
def parse (f : FloatFmt) (s : GoStr) : Option (Bool × Nat) :=
  let (signed, neg, l) := splitSign s
  let lower := l.map lowerByte
  if lower = gs! "inf" ∨ lower = gs! "infinity" then some (neg, f.inf)
  else if lower = gs! "nan" ∧ signed = false then some (false, f.inf + 2 ^ (f.mant - 1))
  else
    match readDecimal l with
    | none => none
    | some (d, e) => (f.ofDecimal d e).map fun b => (neg, b)

/-! ## Formatting -/

/-- The `k` last decimal digits of `c`. -/
def lastDigits : Nat → Nat → GoStr
  | 0, _ => []
  | k + 1, c => lastDigits k (c / 10) ++ [UInt8.ofNat (48 + c % 10)]

/-- The number `c / 10^k` in decimal, with `k` digits after the point. -/
def decimal (c k : Nat) : GoStr := fmtNat (c / 10 ^ k) ++ (if k = 0 then [] else 46 :: lastDigits k c)

/-- The decimal `c` at position `j`, that is `c * 10^maxDigits / 10^j`, is read as the float `b`. -/
def accepts (f : FloatFmt) (b c j : Nat) : Bool := f.nearest (c * 10 ^ f.maxDigits * 2 ^ f.scale) (10 ^ j) = b

/-- The decimals with last digit at position `j` on either side of the float (the number before and, if the float lies between them, the number after it): is
one of them read as the float?  If both are, the nearer one, ties to even. -/
def tryDigits (f : FloatFmt) (b j : Nat) : Option Nat :=
  let n := f.units b * 10 ^ j
  let d := 2 ^ f.scale * 10 ^ f.maxDigits
  let c := n / d
  if c = 0 then none
  else
    let down := f.accepts b c j
    let up := decide (n % d ≠ 0) && f.accepts b (c + 1) j
    if down && up then some (if 2 * (n % d) < d ∨ (2 * (n % d) = d ∧ c % 2 = 0) then c else c + 1)
    else if down then some c
    else if up then some (c + 1)
    else none

/-- Positions one after the other, beginning with the first digit of the float; at the last position the decimal is exact. -/
def shortest (f : FloatFmt) (b : Nat) : Nat → Nat → Nat × Nat
  | 0, j => (f.units b * 10 ^ j / (2 ^ f.scale * 10 ^ f.maxDigits), j)
  | fuel + 1, j =>
    match f.tryDigits b j with
    | some c => (c, j)
    | none => shortest f b fuel (j + 1)

/-- Zeros at the end of the digits after the point are dropped. -/
def dropZeros : Nat → Nat → Nat × Nat
  | c, 0 => (c, 0)
  | c, k + 1 => if c % 10 = 0 then dropZeros (c / 10) k else (c, k + 1)

/-- `FormatFloat(x, 'f', -1, …)` of a finite float without sign. -/
def formatShortest (f : FloatFmt) (b : Nat) : GoStr :=
  if b = 0 then [48]
  else
    let (c, j) := f.shortest b (f.maxDigits + f.scale) 0
    if j ≤ f.maxDigits then fmtNat (c * 10 ^ (f.maxDigits - j))
    else decimal (dropZeros c (j - f.maxDigits)).1 (dropZeros c (j - f.maxDigits)).2

/-- The whole number nearest to `n / d`, ties to even. -/
def nearestNat (n d : Nat) : Nat :=
  if 2 * (n % d) < d ∨ (2 * (n % d) = d ∧ n / d % 2 = 0) then n / d else n / d + 1

/-- `FormatFloat(x, 'f', prec, …)` of a finite float without sign. -/
def formatPrec (f : FloatFmt) (b prec : Nat) : GoStr := decimal (nearestNat (f.units b * 10 ^ prec) (2 ^ f.scale)) prec

/-- The sign and the names of infinity and NaN around a format for finite floats. -/
def format (f : FloatFmt) (finite : Nat → GoStr) (neg : Bool) (b : Nat) : GoStr :=
  if f.inf < b then gs! "NaN"
  else if b = f.inf then (if neg then gs! "-Inf" else gs! "+Inf")
  else (if neg then [45] else []) ++ finite b

end FloatFmt
end Verif
