import Verif.Lemmas.Calendar
import Verif.Model.Time
import Verif.Lemmas.Time

/-!
# C75: the dates written are those of the calendar
-/

namespace Verif

/-- Specification: the number of days of a month, as everybody knows it. -/
def monthDays (y : Int) (m : Nat) : Nat :=
  if m = 2 then (if y % 400 = 0 ∨ (y % 4 = 0 ∧ y % 100 ≠ 0) then 29 else 28)
  else if m = 4 ∨ m = 6 ∨ m = 9 ∨ m = 11 then 30 else 31

/-- Specification: the day after a day (year, month, day). -/
def nextDay : Int × Nat × Nat → Int × Nat × Nat
  | (y, m, d) => if d < monthDays y m then (y, m, d + 1) else if m < 12 then (y, m + 1, 1) else (y + 1, 1, 1)

/-- Specification: hours, minutes and seconds of a second of the day. -/
def clockText (s : Nat) : GoStr := zeroPad 2 (s / 3600) ++ 58 :: zeroPad 2 (s / 60 % 60) ++ 58 :: zeroPad 2 (s % 60)

theorem daysIn_eq (y : Int) {m : Nat} (h1 : 1 ≤ m) (h2 : m ≤ 12) : daysIn m y = monthDays y m := by
  have hl : isLeap y = decide (y % 400 = 0 ∨ (y % 4 = 0 ∧ y % 100 ≠ 0)) := by
    rw [Bool.eq_iff_iff, isLeap_iff, decide_eq_true_eq]; omega
  unfold daysIn monthDays
  rw [hl]
  generalize hb : decide (y % 400 = 0 ∨ (y % 4 = 0 ∧ y % 100 ≠ 0)) = b
  have hp : (y % 400 = 0 ∨ (y % 4 = 0 ∧ y % 100 ≠ 0)) ↔ b = true := by rw [← hb, decide_eq_true_eq]
  simp only [hp]
  have key : ∀ b : Bool, ∀ m < 13, 1 ≤ m → (monthLengths b).getD (m - 1) 0 =
      if m = 2 then (if b = true then 29 else 28) else if m = 4 ∨ m = 6 ∨ m = 9 ∨ m = 11 then 30 else 31 := by decide
  exact key b m (by omega) h1

theorem months_step : ∀ b, ∀ m < 12, 1 ≤ m →
    ((monthLengths b).take (m - 1)).sum + (monthLengths b).getD (m - 1) 0 = ((monthLengths b).take m).sum := by decide

theorem months_last : ∀ b, ((monthLengths b).take 11).sum + (monthLengths b).getD 11 0 = if b then 366 else 365 := by decide

theorem nextDay_facts {c : Int × Nat × Nat} (h : ValidDate c) :
    ValidDate (nextDay c) ∧ daysTo (nextDay c).1 (nextDay c).2.1 (nextDay c).2.2 = daysTo c.1 c.2.1 c.2.2 + 1 := by
  obtain ⟨y, m, d⟩ := c
  obtain ⟨h1, h2, h3, h4⟩ := h
  simp only at h1 h2 h3 h4
  have hd := daysIn_eq y h1 h2
  simp only [nextDay]
  split
  · rename_i hlt
    refine ⟨⟨h1, h2, by simp, by simp only; omega⟩, ?_⟩
    simp only [daysTo_eq]; omega
  · rename_i hge
    split
    · rename_i hm
      refine ⟨⟨by simp, by simp only; omega, by simp, ?_⟩, ?_⟩
      · simp only
        rw [daysIn_eq y (by omega) (by omega)]
        unfold monthDays
        repeat' split
        all_goals omega
      · have := months_step (isLeap y) m hm h1
        simp only [daysTo_eq, daysIn, Nat.add_sub_cancel] at *
        omega
    · rename_i hm
      have hm : m = 12 := by omega
      subst hm
      refine ⟨⟨by simp, by simp, by simp, ?_⟩, ?_⟩
      · simp only
        rw [daysIn_eq _ (by omega) (by omega)]
        unfold monthDays
        repeat' split
        all_goals omega
      · have := months_last (isLeap y)
        have hs := yearStart_succ y
        simp only [daysTo_eq, daysIn] at *
        have e0 : (List.take (1 - 1) (monthLengths (isLeap (y + 1)))).sum = 0 := by simp
        rw [e0, hs]
        simp only [show 12 - 1 = 11 from rfl] at *
        split <;> simp_all <;> omega

/-- **C75**, the calendar: there is a way to number the days by dates, in which day 0 is 1 January 1970 and each day is followed by the next day of the Gregorian calendar, such that the
text of every time (any second, before or after 1970, in any zone) begins with the date of its local day and the time of that day. -/
theorem C75_calendar : ∃ date : Int → Int × Nat × Nat, date 0 = (1970, 1, 1) ∧ (∀ n, date (n + 1) = nextDay (date n)) ∧
    ∀ v : GoTime, goFormatTime v = fmtYear (date ((v.sec + v.off) / 86400)).1 ++ 45 :: zeroPad 2 (date ((v.sec + v.off) / 86400)).2.1 ++
      45 :: zeroPad 2 (date ((v.sec + v.off) / 86400)).2.2 ++ 84 :: clockText ((v.sec + v.off) % 86400).toNat ++ fmtFrac v.nsec ++ fmtZone v.off := by
  refine ⟨fun n => civil (n + daysToEpoch), by decide +kernel, fun n => ?_, fun v => ?_⟩
  · obtain ⟨h1, h2⟩ := nextDay_facts (civil_valid (n + daysToEpoch))
    rw [(civil_facts _).1] at h2
    have := civil_daysTo h1
    rw [h2] at this
    show civil (n + 1 + daysToEpoch) = _
    rw [← this, show n + 1 + daysToEpoch = n + daysToEpoch + 1 by omega]
  · simp only [goFormatTime, fmtDateTime, clockText, List.append_assoc, List.cons_append]

/-! ## The characters -/

/-- Specification: the last digit of a number, as a character. -/
def unitDigit (n : Nat) : UInt8 := UInt8.ofNat (48 + n % 10)

/-- Specification: two digits. -/
def twoDigits (n : Nat) : GoStr := [unitDigit (n / 10), unitDigit n]

/-- Specification: the text of nanoseconds.  Nothing if there are none; else a dot and the digits of the fraction, the last of them not zero: with the missing zeros they are the nine digits
of the nanoseconds. -/
def FractionText (nsec : Nat) (s : GoStr) : Prop :=
  (nsec = 0 ∧ s = []) ∨
  (nsec ≠ 0 ∧ ∃ ds k, s = 46 :: ds ∧ ds.getLast? ≠ some 48 ∧ ds ++ List.replicate k 48 =
    [unitDigit (nsec / 100000000), unitDigit (nsec / 10000000), unitDigit (nsec / 1000000), unitDigit (nsec / 100000), unitDigit (nsec / 10000),
      unitDigit (nsec / 1000), unitDigit (nsec / 100), unitDigit (nsec / 10), unitDigit nsec])

/-- Specification: the text of a zone: `Z` for UTC, else sign, hours and minutes of the distance.  Less than a minute is `+00:00`. -/
def OffsetText (off : Int) (s : GoStr) : Prop :=
  (off = 0 ∧ s = gs! "Z") ∨
  (off ≠ 0 ∧ s = (if off ≤ -60 then 45 else 43) :: twoDigits (off.natAbs / 3600) ++ 58 :: twoDigits (off.natAbs / 60 % 60))

theorem zeroPad_twoDigits {n : Nat} (h : n < 100) : zeroPad 2 n = twoDigits n := by
  rw [zeroPad_two h, twoDigits, unitDigit, unitDigit, Nat.mod_eq_of_lt (show n / 10 < 10 by omega)]
  rfl

theorem dropZeros_last (s : GoStr) : (dropZeros s).getLast? ≠ some 48 := by
  unfold dropZeros
  rw [List.getLast?_reverse]
  intro h
  cases e : s.reverse.dropWhile (fun c => decide (c = 48)) with
  | nil => rw [e] at h; cases h
  | cons c cs =>
    rw [e] at h
    have hc : c = 48 := Option.some.inj h
    have := List.head_dropWhile_not (fun c : UInt8 => decide (c = 48)) (l := s.reverse) (by rw [e]; simp)
    simp [e, hc] at this

theorem fmtFrac_text {n : Nat} (h : n < 1000000000) : FractionText n (fmtFrac n) := by
  by_cases h0 : n = 0
  · exact .inl ⟨h0, by simp [fmtFrac, h0]⟩
  · obtain ⟨k, hk⟩ := dropZeros_eq (zeroPad 9 n)
    refine .inr ⟨h0, dropZeros (zeroPad 9 n), k, by simp [fmtFrac, h0], dropZeros_last _, ?_⟩
    rw [← hk, (zeroPad_eq 8 n h).1]
    simp only [lastDigits, List.nil_append, List.cons_append, unitDigit, dg, Nat.div_div_eq_div_mul]

theorem fmtZone_offset {off : Int} (h : off.natAbs < 360000) : OffsetText off (fmtZone off) := by
  by_cases h0 : off = 0
  · exact .inl ⟨h0, by simp [fmtZone, h0]⟩
  · refine .inr ⟨h0, ?_⟩
    have e : (off.tdiv 60).natAbs = off.natAbs / 60 := by rw [Int.natAbs_tdiv]; rfl
    have e1 : off.natAbs / 60 / 60 = off.natAbs / 3600 := by omega
    have g1 : 0 ≤ off → 0 ≤ off.tdiv 60 := fun h => Int.tdiv_nonneg h (by decide)
    have g2 : off ≤ 0 → off.tdiv 60 ≤ 0 := by
      intro h
      have h2 := Int.tdiv_nonneg (a := -off) (b := 60) (by omega) (by decide)
      rw [Int.neg_tdiv] at h2
      omega
    have e2 : (off.tdiv 60 < 0) ↔ off ≤ -60 := by omega
    simp only [fmtZone, if_neg h0, e, e1, e2]
    rw [zeroPad_twoDigits (by omega), zeroPad_twoDigits (by omega)]

/-- **C75**, the characters: with the calendar of `C75_calendar`, the text of a time of the years 0 to 9999 is `YYYY-MM-DDThh:mm:ss`, the fraction of the second and the zone, all in digits. -/
theorem C75_characters : ∃ date : Int → Int × Nat × Nat, date 0 = (1970, 1, 1) ∧ (∀ n, date (n + 1) = nextDay (date n)) ∧
    ∀ (v : GoTime) (day : Int) (s : Nat) (y m d : Nat), v.sec + v.off = 86400 * day + s → s < 86400 → date day = ((y : Int), m, d) → y ≤ 9999 →
      v.nsec < 1000000000 → v.off.natAbs < 360000 →
      ∃ fraction zone, FractionText v.nsec fraction ∧ OffsetText v.off zone ∧
        goFormatTime v = twoDigits (y / 100) ++ twoDigits (y % 100) ++ 45 :: twoDigits m ++ 45 :: twoDigits d ++ 84 :: twoDigits (s / 3600) ++
          58 :: twoDigits (s / 60 % 60) ++ 58 :: twoDigits (s % 60) ++ fraction ++ zone := by
  refine ⟨fun n => civil (n + daysToEpoch), by decide +kernel, fun n => ?_, fun v day s y m d hs hlt hd hy hn ho => ?_⟩
  · obtain ⟨h1, h2⟩ := nextDay_facts (civil_valid (n + daysToEpoch))
    rw [(civil_facts _).1] at h2
    have := civil_daysTo h1
    rw [h2] at this
    show civil (n + 1 + daysToEpoch) = _
    rw [← this, show n + 1 + daysToEpoch = n + daysToEpoch + 1 by omega]
  · refine ⟨fmtFrac v.nsec, fmtZone v.off, fmtFrac_text hn, fmtZone_offset ho, ?_⟩
    have hd' : civil (day + daysToEpoch) = ((y : Int), m, d) := hd
    obtain ⟨_, c1, c2, c3, c4⟩ := civil_facts (day + daysToEpoch)
    rw [hd'] at c1 c2 c3 c4
    simp only at c1 c2 c3 c4
    have c5 : daysIn m (y : Int) ≤ 31 := by
      rw [daysIn_eq _ c1 c2]
      unfold monthDays
      split
      · split <;> omega
      · split <;> omega
    have e1 : (v.sec + v.off) / 86400 = day := by omega
    have e2 : ((v.sec + v.off) % 86400).toNat = s := by omega
    have ey : fmtYear (y : Int) = twoDigits (y / 100) ++ twoDigits (y % 100) := by
      rw [fmtYear, if_neg (by omega), Int.natAbs_natCast, zeroPad_four (by omega)]
      simp only [twoDigits, unitDigit, dg, List.cons_append, List.nil_append]
      rw [show y / 100 / 10 % 10 = y / 1000 by omega, show y % 100 / 10 % 10 = y / 10 % 10 by omega, show y % 100 % 10 = y % 10 by omega]
    simp only [goFormatTime, fmtDateTime, e1, e2, hd', ey]
    rw [zeroPad_twoDigits (show m < 100 by omega), zeroPad_twoDigits (show d < 100 by omega), zeroPad_twoDigits (show s / 3600 < 100 by omega),
      zeroPad_twoDigits (show s / 60 % 60 < 100 by omega), zeroPad_twoDigits (show s % 60 < 100 by omega)]

-- half past seven in the evening of 1 January 1970, half a second later, five hours and a half east
example : goFormatTime { sec := 50400, nsec := 500000000, off := 19800 } = gs! "1970-01-01T19:30:00.5+05:30" ∧
    (50400 : Int) + 19800 = 86400 * 0 + 70200 ∧ OffsetText 19800 (gs! "+05:30") := by
  refine ⟨by decide +kernel, by decide, .inr ⟨by decide, by decide +kernel⟩⟩

/-! Not vacuous: what the specification says about the ends of months and years. -/
example : nextDay (2000, 2, 28) = (2000, 2, 29) ∧ nextDay (1900, 2, 28) = (1900, 3, 1) ∧ nextDay (2024, 2, 29) = (2024, 3, 1) ∧
    nextDay (1999, 12, 31) = (2000, 1, 1) ∧ nextDay (2026, 6, 30) = (2026, 7, 1) ∧ nextDay (2026, 7, 30) = (2026, 7, 31) := by decide
example : goFormatTime { sec := 86400 * 31, nsec := 0, off := 0 } = gs! "1970-02-01T00:00:00Z" := by decide +kernel

end Verif
