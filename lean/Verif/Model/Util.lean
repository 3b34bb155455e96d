import Verif.Model.Types

/-!
# Small helpers
-/

namespace Verif

/-- The loop of `padTrailingZeros` (gotables.go:3161-3171), at index `i`, going down to 1.  46 is `.`, 48 is `0`, 32 is a space. -/
def padLoop (hasPoint : Bool) : Nat → List UInt8 → List UInt8
  | 0, b => b
  | i + 1, b =>
    if b[i]? = some 46 ∨ b[i + 1]? ≠ some 48 then b
    else padLoop hasPoint i (if hasPoint then b.set (i + 1) 32 else b)

/-- `padTrailingZeros` (gotables.go:3158-3174). -/
def padTrailingZeros (s : GoStr) : GoStr := padLoop (s.contains 46) (s.length - 1) s

/-- `bytes.TrimSuffix(b, []byte(" "))`. -/
def trimSuffixSpace (b : List UInt8) : List UInt8 := if b.getLast? = some 32 then b.dropLast else b

/-- The loop of `trimTrailingZeros` (gotables.go:3184-3195). -/
def trimLoop (hasPoint : Bool) : Nat → List UInt8 → List UInt8
  | 0, b => b
  | i + 1, b =>
    if b[i]? = some 46 ∨ b[i + 1]? ≠ some 48 then b
    else trimLoop hasPoint i (if hasPoint then trimSuffixSpace (b.set (i + 1) 32) else b)

/-- `trimTrailingZeros` (gotables.go:3181-3198). -/
def trimTrailingZeros (s : GoStr) : GoStr := trimLoop (s.contains 46) (s.length - 1) s

/-- The loop of `Uint8SliceEquals` (gotables.go:3862-3866): the first difference ends it. -/
def bytesLoop (slice1 slice2 : List UInt8) : List Nat → Out Unit
  | [] => .ok ()
  | i :: is =>
    match slice1[i]?, slice2[i]? with
    | some x, some y => if x ≠ y then .err .notEqual else bytesLoop slice1 slice2 is
    | _, _ => .panic

/-- `Uint8SliceEquals` (gotables.go:3846-3869); `none` is the nil slice.  The second result is the error. -/
def uint8SliceEquals (slice1 slice2 : Option (List UInt8)) : Out Unit :=
  if slice1.isNone ∧ ¬ slice2.isNone then .err .notEqual
  else if ¬ slice1.isNone ∧ slice2.isNone then .err .notEqual
  else
    let l1 := slice1.getD []
    let l2 := slice2.getD []
    if l1.length ≠ l2.length then .err .notEqual
    else bytesLoop l1 l2 (List.range l1.length)

end Verif
