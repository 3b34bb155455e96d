import Verif.Model.Types
import Verif.Model.Literal
import Verif.Go.Strconv

/-!
# Times as texts

`time.Format` and `time.Parse` of Go's standard library for the layouts RFC3339 and RFC3339Nano, with which times are written (gotables.go:1562-1568, 3005-3012, json.go:213-222) and
read (parser.go:1245-1257, json.go:368).

Simplification: seconds do not overflow (Go counts them in 64 bits from the year -292277022399).
-/

namespace Verif

/-- A leap year of the Gregorian calendar (`isLeap` of package time). -/
def isLeap (y : Int) : Bool := y % 4 = 0 && (y % 100 ≠ 0 || y % 400 = 0)

/-- The lengths of the months. -/
def monthLengths (leap : Bool) : List Nat := [31, if leap then 29 else 28, 31, 30, 31, 30, 31, 31, 30, 31, 30, 31]

/-- `daysIn` of package time; the month counts from 1. -/
def daysIn (m : Nat) (y : Int) : Nat := (monthLengths (isLeap y)).getD (m - 1) 0

/-- The month and the day, both from 1, from the day of the year from 0. -/
def monthDay : List Nat → Nat → Nat → Nat × Nat
  | [], m, d => (m, d + 1)
  | l :: ls, m, d => if d < l then (m, d + 1) else monthDay ls (m + 1) (d - l)

/-- Year, month and day from the number of days since 1 January of the year 1 (`absDate` of package time: cycles of 400, 100, 4 and 1 years). -/
def civil (days : Int) : Int × Nat × Nat :=
  let n400 := days / 146097
  let r400 := days % 146097
  let n100 := min (r400 / 36524) 3
  let r100 := r400 - 36524 * n100
  let n4 := r100 / 1461
  let r4 := r100 % 1461
  let n1 := min (r4 / 365) 3
  let y := 400 * n400 + 100 * n100 + 4 * n4 + n1 + 1
  (y, monthDay (monthLengths (isLeap y)) 1 (r4 - 365 * n1).toNat)

/-- The number of days from 1 January of the year 1 to a date (`Date` of package time). -/
def daysTo (y : Int) (m d : Nat) : Int :=
  365 * (y - 1) + (y - 1) / 4 - (y - 1) / 100 + (y - 1) / 400 + (((monthLengths (isLeap y)).take (m - 1)).sum : Nat) + (d : Int) - 1

/-- The number of days from 1 January of the year 1 to 1 January 1970. -/
def daysToEpoch : Int := 719162

/-- `appendInt` of package time: decimal digits, with zeros in front up to the width. -/
def zeroPad (w n : Nat) : GoStr := List.replicate (w - (fmtNat n).length) 48 ++ fmtNat n

/-- Removes zeros from the end. -/
def dropZeros (s : GoStr) : GoStr := (s.reverse.dropWhile (· = 48)).reverse

/-- `.999999999`: a dot and the nanoseconds without the zeros at the end, nothing if there are none (`appendNano` of package time). -/
def fmtFrac (nsec : Nat) : GoStr := if nsec = 0 then [] else 46 :: dropZeros (zeroPad 9 nsec)

/-- `Z07:00`: `Z` at offset zero, else sign, hours and minutes; seconds of the offset are dropped. -/
def fmtZone (off : Int) : GoStr :=
  if off = 0 then [90]
  else
    let z := off.tdiv 60
    (if z < 0 then 45 else 43) :: zeroPad 2 (z.natAbs / 60) ++ 58 :: zeroPad 2 (z.natAbs % 60)

/-- `appendInt(year, 4)`. -/
def fmtYear (y : Int) : GoStr := if y < 0 then 45 :: zeroPad 4 y.natAbs else zeroPad 4 y.natAbs

/-- `2006-01-02T15:04:05` of the local time, in seconds since the epoch. -/
def fmtDateTime (s : Int) : GoStr :=
  let c := civil (s / 86400 + daysToEpoch)
  let d := (s % 86400).toNat
  fmtYear c.1 ++ 45 :: zeroPad 2 c.2.1 ++ 45 :: zeroPad 2 c.2.2 ++
    84 :: zeroPad 2 (d / 3600) ++ 58 :: zeroPad 2 (d / 60 % 60) ++ 58 :: zeroPad 2 (d % 60)

/-- A time as text: `if timeVal.Nanosecond() > 0 { Format(time.RFC3339Nano) } else { Format(time.RFC3339) }` (gotables.go:1564-1568). -/
def goFormatTime (t : GoTime) : GoStr := fmtDateTime (t.sec + t.off) ++ fmtFrac t.nsec ++ fmtZone t.off

/-- `parseUint` of `parseRFC3339` of package time: a decimal number between bounds. -/
def timeUint (s : GoStr) (lo hi : Nat) : Option Nat :=
  if s.all isDec then
    let n := s.foldl (fun n c => n * 10 + (c.toNat - 48)) 0
    if lo ≤ n ∧ n ≤ hi then some n else none
  else none

/-- `s[i:j]`. -/
def timeSlice (s : GoStr) (i j : Nat) : GoStr := (s.drop i).take (j - i)

/-- `parseNanoseconds` of package time, of the digits after the dot: at most nine count. -/
def nanos (s : GoStr) : Nat := (s.take 9).foldl (fun n c => n * 10 + (c.toNat - 48)) 0 * 10 ^ (9 - (s.take 9).length)

/-- The fraction of a second: nanoseconds and rest. -/
def parseFrac : GoStr → Nat × GoStr
  | 46 :: c :: cs => if isDec c then (nanos ((c :: cs).takeWhile isDec), (c :: cs).dropWhile isDec) else (0, 46 :: c :: cs)
  | s => (0, s)

/-- The offset of the zone in seconds. -/
def parseZone (s : GoStr) : Option Int :=
  if s = [90] then some 0
  else if s.length ≠ 6 then none
  else
    (timeUint (timeSlice s 1 3) 0 23).bind fun h =>
    (timeUint (timeSlice s 4 6) 0 59).bind fun m =>
    if s[3]? = some 58 then
      if s[0]? = some 45 then some (-(((h * 60 + m) * 60 : Nat) : Int))
      else if s[0]? = some 43 then some (((h * 60 + m) * 60 : Nat) : Int)
      else none
    else none

/-- `parseRFC3339` of package time. -/
def parseRFC3339 (s : GoStr) : Option GoTime :=
  if s.length < 19 then none
  else
    (timeUint (timeSlice s 0 4) 0 9999).bind fun y =>
    (timeUint (timeSlice s 5 7) 1 12).bind fun mo =>
    (timeUint (timeSlice s 8 10) 1 (daysIn mo y)).bind fun d =>
    (timeUint (timeSlice s 11 13) 0 23).bind fun h =>
    (timeUint (timeSlice s 14 16) 0 59).bind fun mi =>
    (timeUint (timeSlice s 17 19) 0 59).bind fun sec =>
    if s[4]? = some 45 ∧ s[7]? = some 45 ∧ s[10]? = some 84 ∧ s[13]? = some 58 ∧ s[16]? = some 58 then
      (parseZone (parseFrac (s.drop 19)).2).bind fun off =>
      some { sec := (daysTo y mo d - daysToEpoch) * 86400 + ((h * 3600 + mi * 60 + sec : Nat) : Int) - off, nsec := (parseFrac (s.drop 19)).1, off := off }
    else none

/-- `time.Parse(time.RFC3339, s)`.  What `parseRFC3339` refuses is given to the general parser, which accepts a little more (for example an hour of one digit); that one is the
parameter `lenient`. -/
def goParseTime (lenient : GoStr → Option GoTime) (s : GoStr) : Option GoTime :=
  match parseRFC3339 s with
  | some t => some t
  | none => lenient s

example : goFormatTime { sec := 0, nsec := 0, off := 0 } = gs! "1970-01-01T00:00:00Z" := by decide +kernel
example : goFormatTime { sec := 951782400, nsec := 120000000, off := -5400 } = gs! "2000-02-28T22:30:00.12-01:30" := by decide +kernel
example : goFormatTime minTime = gs! "0001-01-01T00:00:00Z" := by decide +kernel
example : goFormatTime { sec := -62135596801, nsec := 0, off := 0 } = gs! "0000-12-31T23:59:59Z" := by decide +kernel
example : parseRFC3339 (gs! "2000-02-28T22:30:00.12-01:30") = some { sec := 951782400, nsec := 120000000, off := -5400 } := by decide +kernel
example : parseRFC3339 (gs! "2001-02-29T22:30:00Z") = none ∧ parseRFC3339 (gs! "2001-02-28T24:00:00Z") = none := by decide +kernel

end Verif
