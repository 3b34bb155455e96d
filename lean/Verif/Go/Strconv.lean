import Verif.Go.Basic

/-!
# The integer part of package strconv

`strconv` is library code, not in /repo; these definitions follow its source (Go 1.13–1.22) in the way the code of gotables calls it
(bases 2, 8, 10 and 16).
-/

namespace Verif

/-- The digit value of a byte in `ParseUint` (strconv/atoi.go): `0`-`9`, then letters of either case from 10. -/
def strconvDigit (c : UInt8) : Option Nat :=
  if 48 ≤ c ∧ c ≤ 57 then some (c.toNat - 48)
  else if 97 ≤ c ∧ c ≤ 122 then some (c.toNat - 97 + 10)
  else if 65 ≤ c ∧ c ≤ 90 then some (c.toNat - 65 + 10)
  else none

/-- The largest unsigned number of 64 bits, plus one. -/
def two64 : Nat := 18446744073709551616

/-- The loop of `ParseUint` (strconv/atoi.go), in 64 bit arithmetic: `n` is the value so far. -/
def parseUintLoop (base maxVal : Nat) : List UInt8 → Nat → Out Nat
  | [], n => .ok n
  | c :: cs, n =>
    match strconvDigit c with
    | none => .err .syntaxErr
    | some d =>
      if base ≤ d then .err .syntaxErr
      else if (two64 - 1) / base + 1 ≤ n then .err .badRange
      else
        let m := n * base % two64
        let n1 := (m + d) % two64
        if n1 < m ∨ maxVal < n1 then .err .badRange
        else parseUintLoop base maxVal cs n1

/-- `strconv.ParseUint(s, base, bits)`. -/
def strconvParseUint (s : GoStr) (base bits : Nat) : Out Nat :=
  match s with
  | [] => .err .syntaxErr
  | _ => parseUintLoop base (2 ^ bits - 1) s 0

/-- `strconv.ParseInt(s, base, bits)`.  43 is `+`, 45 is `-`.  After a range error of `ParseUint` the value is the largest of `bits` bits,
which is out of the signed range too. -/
def strconvParseInt (s : GoStr) (base bits : Nat) : Out Int :=
  match s with
  | [] => .err .syntaxErr
  | c :: cs =>
    let neg : Bool := c = 45
    let digits := if c = 43 ∨ c = 45 then cs else s
    match strconvParseUint digits base bits with
    | .panic => .panic
    | .err e => .err e
    | .ok un =>
      let cutoff := 2 ^ (bits - 1)
      if ¬ neg ∧ cutoff ≤ un then .err .badRange
      else if neg ∧ cutoff < un then .err .badRange
      else if neg then .ok (-(un : Int)) else .ok (un : Int)

/-- Decimal digits of a number, as by `%d`. -/
def fmtNat (n : Nat) : GoStr :=
  if n < 10 then [UInt8.ofNat (48 + n)] else fmtNat (n / 10) ++ [UInt8.ofNat (48 + n % 10)]

/-- `fmt.Sprintf("%d", v)`. -/
def fmtInt (v : Int) : GoStr :=
  if v < 0 then 45 :: fmtNat v.natAbs else fmtNat v.natAbs

end Verif
