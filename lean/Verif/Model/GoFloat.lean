import Verif.Go.FloatConv
import Verif.Model.Scan

/-!
# The conversion of floats that the code uses
-/

namespace Verif
open FloatFmt

/-- strconv's conversion of floats: `FormatFloat(x, 'f', -1, bits)`, `ParseFloat(s, bits)` and `FormatFloat(x, 'f', prec, bits)` as called in
`GetValAsStringByColIndex` and the printers (gotables.go:1136-1605) and `getRowSlice` (parser.go:1191-1221).  (Go's bits of the NaN that is read differ in the
last bit for float64; the code never looks at them.) -/
def goFloat : FloatText where
  fmt32 b := f32.format f32.formatShortest (decide (2 ^ 31 ≤ b.toNat)) (b.toNat % 2 ^ 31)
  fmt64 b := f64.format f64.formatShortest (decide (2 ^ 63 ≤ b.toNat)) (b.toNat % 2 ^ 63)
  parse32 s := (f32.parse s).map fun (neg, m) => BitVec.ofNat 32 (m + if neg then 2 ^ 31 else 0)
  parse64 s := (f64.parse s).map fun (neg, m) => BitVec.ofNat 64 (m + if neg then 2 ^ 63 else 0)
  prec32 b prec := f32.format (fun m => f32.formatPrec m prec) (decide (2 ^ 31 ≤ b.toNat)) (b.toNat % 2 ^ 31)
  prec64 b prec := f64.format (fun m => f64.formatPrec m prec) (decide (2 ^ 63 ≤ b.toNat)) (b.toNat % 2 ^ 63)

example : goFloat.fmt64 0x400921FB54442D18#64 = gs! "3.141592653589793" := by decide +kernel
example : goFloat.fmt64 0xC24BC0F860680000#64 = gs! "-238403240144" := by decide +kernel
example : goFloat.fmt64 0x44B52D02C7E14AF6#64 = gs! "100000000000000000000000" ∧ goFloat.fmt32 0x3DCCCCCD#32 = gs! "0.1" := by decide +kernel
example : goFloat.parse64 (gs! "0.1") = some 0x3FB999999999999A#64 ∧ goFloat.parse64 (gs! "-1.5e3") = some 0xC097700000000000#64 := by decide +kernel
example : goFloat.parse64 (gs! "2e308") = none ∧ goFloat.parse64 (gs! "2e-324") = some 0#64 ∧ goFloat.parse64 (gs! "1.") = some 0x3FF0000000000000#64 := by decide +kernel
example : goFloat.prec64 0x3FC0000000000000#64 2 = gs! "0.12" ∧ goFloat.prec64 0x3FF8000000000000#64 3 = gs! "1.500" := by decide +kernel

end Verif
