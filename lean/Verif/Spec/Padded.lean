import Verif.Spec.Text
import Verif.Model.Time
import Verif.Model.GoFloat
import Verif.Model.Printer

/-!
# Specification: numbers and times that the padded text preserves
-/

namespace Verif

/-- The exponents of 27 negative powers of two. -/
def badPowers64 : List Nat :=
  [24, 44, 77, 97, 140, 296, 366, 383, 489, 496, 499, 509, 549, 569, 645, 652, 662, 695, 705, 778, 788, 791, 808, 921, 957, 1007, 1017]

/-- The float64 is 2^-n or -2^-n for one of the exponents `n`: its mantissa is zero, and its exponent field is 1023 - n. -/
def BadPower64 (b : BitVec 64) : Prop := ∃ n ∈ badPowers64, b.toNat % 2 ^ 63 = (1023 - n) * 2 ^ 52

/-- The float32 is 2^-96 or -2^-96. -/
def BadPower32 (b : BitVec 32) : Prop := b.toNat % 2 ^ 31 = (127 - 96) * 2 ^ 23

/-- A time that its text determines: in its zone it is between the beginning of the year 0 and the end of the year 9999, and the zone is a whole number of minutes, less than a day,
from UTC. -/
structure TimeSafe (v : GoTime) : Prop where
  fromYear0 : -62167219200 ≤ v.sec + v.off
  toYear9999 : v.sec + v.off < 253402300800
  nanos : v.nsec < 10 ^ 9
  lessThanADay : v.off.natAbs < 86400
  minutes : 60 ∣ v.off

/-- A cell that the padded text preserves: an integer is at most 2^53 in magnitude, so that a float64 holds it exactly, a float is none of the bad powers of two, and the fraction of a
second of a time has nine digits (its last one is not zero) or none. -/
def PadSafe {τ : Type} : Cell τ → Prop
  | .int _ v => v.natAbs ≤ 2 ^ 53
  | .f32 b => ¬ BadPower32 b
  | .f64 b => ¬ BadPower64 b
  | .time v => TimeSafe v ∧ (v.nsec = 0 ∨ v.nsec % 10 ≠ 0)
  | _ => True

/-- Floats and times are written and read as Go's standard library does it. -/
structure PrintEnv.IsGo (P : PrintEnv) : Prop where
  float : P.text.float = goFloat
  fmtTime : P.fmtTime = goFormatTime
  parseTime : ∃ lenient, P.text.parseTime = goParseTime lenient

end Verif
