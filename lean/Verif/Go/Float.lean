/-!
# IEEE 754 comparison on bit patterns

Go's `<` and `==` on `float32` and `float64`.  A NaN is neither less than, equal to nor greater than anything;
`-0 == +0`.  For non-NaN values the order is that of the sign-magnitude reading of the bits.
-/

namespace Verif

/-- NaN test for a float with `e` exponent bits and `m` mantissa bits given as a natural number below `2^(1+e+m)`:
the magnitude exceeds that of infinity. -/
def isNaNBits (e m : Nat) (bits : Nat) : Bool :=
  (2 ^ e - 1) * 2 ^ m < bits % 2 ^ (e + m)

/-- Sign-magnitude reading: `-0` and `+0` both give `0`. -/
def floatKey (e m : Nat) (bits : Nat) : Int :=
  if bits < 2 ^ (e + m) then (bits : Int) else - ((bits % 2 ^ (e + m) : Nat) : Int)

def isNaN32 (b : BitVec 32) : Bool := isNaNBits 8 23 b.toNat
def isNaN64 (b : BitVec 64) : Bool := isNaNBits 11 52 b.toNat
def key32 (b : BitVec 32) : Int := floatKey 8 23 b.toNat
def key64 (b : BitVec 64) : Int := floatKey 11 52 b.toNat

/-- `x < y` on `float32`. -/
def f32Lt (x y : BitVec 32) : Bool := !isNaN32 x && !isNaN32 y && decide (key32 x < key32 y)
/-- `x < y` on `float64`. -/
def f64Lt (x y : BitVec 64) : Bool := !isNaN64 x && !isNaN64 y && decide (key64 x < key64 y)
/-- `x == y` on `float32`. -/
def f32Eq (x y : BitVec 32) : Bool := !isNaN32 x && !isNaN32 y && decide (key32 x = key32 y)
/-- `x == y` on `float64`. -/
def f64Eq (x y : BitVec 64) : Bool := !isNaN64 x && !isNaN64 y && decide (key64 x = key64 y)

-- sanity: 1.0 < 2.0, -1.0 < 1.0, -0 == +0, NaN, infinity is not NaN
example : f64Lt 0x3ff0000000000000#64 0x4000000000000000#64 = true := by decide
example : f64Lt 0xbff0000000000000#64 0x3ff0000000000000#64 = true := by decide
example : f64Lt 0xc000000000000000#64 0xbff0000000000000#64 = true := by decide
example : f64Eq 0x8000000000000000#64 0#64 = true := by decide
example : isNaN64 0x7ff8000000000001#64 = true := by decide
example : isNaN64 0x7ff0000000000000#64 = false := by decide
example : isNaN64 0xfff8000000000000#64 = true := by decide

end Verif
