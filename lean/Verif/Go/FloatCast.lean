import Verif.Go.FloatConv

/-!
# Conversions between floats and integers (Go language specification, "Conversions")
-/

namespace Verif
open FloatFmt

/-- The whole part of a finite `float64` ("when converting a floating-point number to an integer, the fraction is discarded"); `none` for infinities and NaNs. -/
def f64Trunc (b : BitVec 64) : Option Int :=
  let m := b.toNat % 2 ^ 63
  if m < f64.inf then
    let v : Int := (f64.units m / 2 ^ f64.scale : Nat)
    some (if 2 ^ 63 ≤ b.toNat then -v else v)
  else none

/-- `float32(x)` of a `float64`: the nearest `float32`, ties to even; infinity if it is too great. -/
def f64To32 (b : BitVec 64) : BitVec 32 :=
  let m := b.toNat % 2 ^ 63
  let sign := if 2 ^ 63 ≤ b.toNat then 2 ^ 31 else 0
  if m < f64.inf then
    let r := f32.nearest (f64.units m) (2 ^ (f64.scale - f32.scale))
    BitVec.ofNat 32 ((if r < f32.inf then r else f32.inf) + sign)
  else if m = f64.inf then BitVec.ofNat 32 (f32.inf + sign)
  else BitVec.ofNat 32 (f32.inf + 2 ^ 22 + sign)

-- -3.7, 0.1, 1e300, 2^24+1
example : f64Trunc 0xC00D99999999999A#64 = some (-3) ∧ f64Trunc 0x7FF0000000000000#64 = none := by decide +kernel
example : f64To32 0x3FB999999999999A#64 = 0x3DCCCCCD#32 ∧ f64To32 0x7E37E43C8800759C#64 = 0x7F800000#32 ∧ f64To32 0x4170000010000000#64 = 0x4B800000#32 ∧
    f64To32 0x8000000000000000#64 = 0x80000000#32 := by decide +kernel

end Verif
