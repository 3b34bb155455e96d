import Verif.Model.Time
import Verif.Model.Scan

/-!
# Lemmas: times as texts
-/

namespace Verif

/-! ## The calendar -/

/-- The cycles of years: the year and the day of the year. -/
theorem year_split (d n400 r400 n100 r100 n4 r4 n1 yd y : Int) (h1 : n400 = d / 146097) (h2 : r400 = d % 146097) (h3 : n100 = min (r400 / 36524) 3) (h4 : r100 = r400 - 36524 * n100)
    (h5 : n4 = r100 / 1461) (h6 : r4 = r100 % 1461) (h7 : n1 = min (r4 / 365) 3) (h8 : yd = r4 - 365 * n1) (h9 : y = 400 * n400 + 100 * n100 + 4 * n4 + n1 + 1) :
    365 * (y - 1) + (y - 1) / 4 - (y - 1) / 100 + (y - 1) / 400 + yd = d ∧ 0 ≤ yd ∧ yd < (if isLeap y then 366 else 365) := by
  have a1 : d = 146097 * n400 + r400 ∧ 0 ≤ r400 ∧ r400 < 146097 := by omega
  have a2 : 0 ≤ n100 ∧ n100 ≤ 3 ∧ 0 ≤ r100 ∧ r100 ≤ 36524 ∧ (n100 < 3 → r100 < 36524) := by omega
  have a3 : r100 = 1461 * n4 + r4 ∧ 0 ≤ n4 ∧ n4 ≤ 24 ∧ 0 ≤ r4 ∧ r4 < 1461 ∧ (n4 = 24 → n100 < 3 → r4 < 1460) := by omega
  have a4 : 0 ≤ n1 ∧ n1 ≤ 3 ∧ 0 ≤ yd ∧ yd ≤ 365 ∧ (n1 < 3 → yd < 365) ∧ (n4 = 24 → n100 < 3 → yd < 365) := by omega
  have b1 : (y - 1) / 4 = 100 * n400 + 25 * n100 + n4 := by omega
  have b2 : (y - 1) / 100 = 4 * n400 + n100 := by omega
  have b3 : (y - 1) / 400 = n400 := by omega
  refine ⟨by omega, a4.2.2.1, ?_⟩
  by_cases hl : isLeap y = true
  · rw [if_pos hl]; omega
  · rw [if_neg hl]
    simp only [isLeap, Bool.and_eq_true, decide_eq_true_eq, Bool.or_eq_true, not_and, not_or, ne_eq] at hl
    by_cases hc : n1 < 3
    · exact a4.2.2.2.2.1 hc
    · have : y % 4 = 0 := by omega
      have := hl this
      exact a4.2.2.2.2.2 (by omega) (by omega)

theorem monthDay_facts (ls : List Nat) (m d : Nat) (h : d < ls.sum) :
    ∃ i, i < ls.length ∧ (monthDay ls m d).1 = m + i ∧ (ls.take i).sum + (monthDay ls m d).2 = d + 1 ∧ 1 ≤ (monthDay ls m d).2 ∧ (monthDay ls m d).2 ≤ ls.getD i 0 := by
  induction ls generalizing m d with
  | nil => simp at h
  | cons l ls ih =>
    rw [monthDay]
    split
    · exact ⟨0, by simp, rfl, by simp, by simp, by simpa using by omega⟩
    · rename_i hl
      simp only [List.sum_cons] at h
      obtain ⟨i, h1, h2, h3, h4, h5⟩ := ih (m + 1) (d - l) (by omega)
      refine ⟨i + 1, by simpa using h1, by rw [h2]; omega, ?_, h4, by simpa using h5⟩
      simp only [List.take_succ_cons, List.sum_cons]
      omega

theorem monthLengths_sum (b : Bool) : (monthLengths b).sum = if b then 366 else 365 := by cases b <;> decide

theorem civil_facts (days : Int) :
    daysTo (civil days).1 (civil days).2.1 (civil days).2.2 = days ∧ 1 ≤ (civil days).2.1 ∧ (civil days).2.1 ≤ 12 ∧
      1 ≤ (civil days).2.2 ∧ (civil days).2.2 ≤ daysIn (civil days).2.1 (civil days).1 := by
  have hy := year_split days _ _ _ _ _ _ _ _ _ rfl rfl rfl rfl rfl rfl rfl rfl rfl
  generalize hyv : 400 * (days / 146097) + 100 * min (days % 146097 / 36524) 3 + 4 * ((days % 146097 - 36524 * min (days % 146097 / 36524) 3) / 1461) +
    min ((days % 146097 - 36524 * min (days % 146097 / 36524) 3) % 1461 / 365) 3 + 1 = y at hy
  generalize hdv : (days % 146097 - 36524 * min (days % 146097 / 36524) 3) % 1461 - 365 * min ((days % 146097 - 36524 * min (days % 146097 / 36524) 3) % 1461 / 365) 3 = yd at hy
  have hc : civil days = (y, monthDay (monthLengths (isLeap y)) 1 yd.toNat) := by
    rw [← hdv, ← hyv]; rfl
  rw [hc]
  obtain ⟨h1, h2, h3⟩ := hy
  obtain ⟨i, g1, g2, g3, g4, g5⟩ := monthDay_facts (monthLengths (isLeap y)) 1 yd.toNat (by rw [monthLengths_sum]; split <;> simp_all <;> omega)
  have hl : (monthLengths (isLeap y)).length = 12 := rfl
  refine ⟨?_, by simp only; omega, by simp only; omega, g4, ?_⟩
  · unfold daysTo
    simp only
    rw [g2, show 1 + i - 1 = i by omega]
    omega
  · unfold daysIn
    simp only
    rw [g2, show 1 + i - 1 = i by omega]
    exact g5

/-- The first day of a year. -/
theorem civil_day (days : Int) : ∃ yd, 365 * ((civil days).1 - 1) + ((civil days).1 - 1) / 4 - ((civil days).1 - 1) / 100 + ((civil days).1 - 1) / 400 + yd = days ∧ 0 ≤ yd ∧
    yd < (if isLeap (civil days).1 then 366 else 365) :=
  ⟨_, year_split days _ _ _ _ _ _ _ _ _ rfl rfl rfl rfl rfl rfl rfl rfl rfl⟩

/-- Between 1 January of the year 0 and 31 December of the year 9999 the year has four digits. -/
theorem civil_year (days : Int) : (0 ≤ (civil days).1 ∧ (civil days).1 ≤ 9999) ↔ (-366 ≤ days ∧ days < 3652059) := by
  obtain ⟨yd, h1, h2, h3⟩ := civil_day days
  generalize (civil days).1 = y at *
  have h4 : yd < 366 := by split at h3 <;> omega
  by_cases e1 : y = 9999
  · subst e1
    rw [if_neg (by decide)] at h3
    omega
  · by_cases e2 : y = 0
    · subst e2; omega
    · by_cases e3 : y = -1
      · subst e3
        rw [if_neg (by decide)] at h3
        omega
      · by_cases e4 : y = 10000
        · subst e4; omega
        · omega

/-! ## Digits -/

/-- A decimal digit. -/
def dg (k : Nat) : UInt8 := UInt8.ofNat (48 + k)

theorem dg_toNat {k : Nat} (h : k < 10) : (dg k).toNat = 48 + k := by
  unfold dg
  rw [UInt8.toNat_ofNat']
  exact Nat.mod_eq_of_lt (by omega)

theorem dg_isDec {k : Nat} (h : k < 10) : isDec (dg k) = true := by
  have := dg_toNat h
  simp only [isDec, Bool.and_eq_true, decide_eq_true_eq, UInt8.le_iff_toNat_le]
  rw [this]
  exact ⟨by simp, by simp; omega⟩

/-- The last `w` digits. -/
def lastDigits : Nat → Nat → GoStr
  | 0, _ => []
  | w + 1, n => lastDigits w (n / 10) ++ [dg (n % 10)]

theorem lastDigits_length (w n : Nat) : (lastDigits w n).length = w := by
  induction w generalizing n with
  | zero => rfl
  | succ w ih => simp [lastDigits, ih]

theorem lastDigits_dec (w n : Nat) : ∀ c ∈ lastDigits w n, isDec c = true := by
  induction w generalizing n with
  | zero => intro c hc; cases hc
  | succ w ih =>
    intro c hc
    rw [lastDigits, List.mem_append, List.mem_singleton] at hc
    rcases hc with hc | rfl
    · exact ih _ c hc
    · exact dg_isDec (by omega)

theorem lastDigits_zero (w : Nat) : lastDigits w 0 = List.replicate w 48 := by
  induction w with
  | zero => rfl
  | succ w ih => rw [lastDigits, List.replicate_succ', show 0 / 10 = 0 from rfl, ih]; rfl

/-- The number that digits denote. -/
def timeDigits (s : GoStr) : Nat := s.foldl (fun n c => n * 10 + (c.toNat - 48)) 0

theorem timeDigits_snoc (s : GoStr) (c : UInt8) : timeDigits (s ++ [c]) = timeDigits s * 10 + (c.toNat - 48) := by
  simp [timeDigits]

theorem timeDigits_last (w n : Nat) (h : n < 10 ^ w) : timeDigits (lastDigits w n) = n := by
  induction w generalizing n with
  | zero => simp only [Nat.pow_zero] at h; simp only [lastDigits]; exact (show (0 : Nat) = n by omega)
  | succ w ih =>
    rw [lastDigits, timeDigits_snoc, ih _ (by rw [Nat.pow_succ] at h; omega), dg_toNat (by omega)]
    omega

theorem timeDigits_zeros (s : GoStr) (k : Nat) : timeDigits (s ++ List.replicate k 48) = timeDigits s * 10 ^ k := by
  induction k with
  | zero => simp
  | succ k ih => rw [List.replicate_succ', ← List.append_assoc, timeDigits_snoc, ih, Nat.pow_succ, Nat.mul_assoc]; rfl

theorem zeroPad_eq (w n : Nat) (h : n < 10 ^ (w + 1)) : zeroPad (w + 1) n = lastDigits (w + 1) n ∧ (fmtNat n).length ≤ w + 1 := by
  induction w generalizing n with
  | zero =>
    have h' : n < 10 := by simpa using h
    have e : fmtNat n = [UInt8.ofNat (48 + n)] := by rw [fmtNat, if_pos h']
    rw [zeroPad, e]
    refine ⟨?_, by simp⟩
    simp [lastDigits, dg, Nat.mod_eq_of_lt h']
  | succ w ih =>
    by_cases h' : n < 10
    · have e : fmtNat n = [UInt8.ofNat (48 + n)] := by rw [fmtNat, if_pos h']
      rw [zeroPad, e, lastDigits, Nat.div_eq_of_lt h', lastDigits_zero, Nat.mod_eq_of_lt h']
      exact ⟨rfl, by simp⟩
    · have e : fmtNat n = fmtNat (n / 10) ++ [UInt8.ofNat (48 + n % 10)] := by rw [fmtNat, if_neg h']
      obtain ⟨i1, i2⟩ := ih (n / 10) (by rw [Nat.pow_succ] at h; omega)
      rw [zeroPad, e, lastDigits, ← i1, zeroPad]
      simp only [List.length_append, List.length_singleton, List.append_assoc]
      refine ⟨?_, by omega⟩
      rw [show w + 1 + 1 - ((fmtNat (n / 10)).length + 1) = w + 1 - (fmtNat (n / 10)).length by omega]
      rfl

theorem zeroPad_two {n : Nat} (h : n < 100) : zeroPad 2 n = [dg (n / 10), dg (n % 10)] := by
  rw [(zeroPad_eq 1 n h).1]
  simp only [lastDigits, List.nil_append, List.cons_append]
  rw [Nat.mod_eq_of_lt (show n / 10 < 10 by omega)]

theorem zeroPad_four {n : Nat} (h : n < 10000) : zeroPad 4 n = [dg (n / 1000), dg (n / 100 % 10), dg (n / 10 % 10), dg (n % 10)] := by
  rw [(zeroPad_eq 3 n h).1]
  simp only [lastDigits, List.nil_append, List.cons_append]
  rw [show n / 10 / 10 / 10 % 10 = n / 1000 by omega, show n / 10 / 10 % 10 = n / 100 % 10 by omega]

theorem timeUint_eq (s : GoStr) (lo hi n : Nat) (h1 : ∀ c ∈ s, isDec c = true) (h2 : timeDigits s = n) (h3 : lo ≤ n) (h4 : n ≤ hi) : timeUint s lo hi = some n := by
  unfold timeUint
  rw [if_pos (List.all_eq_true.2 h1)]
  show (if lo ≤ timeDigits s ∧ timeDigits s ≤ hi then some (timeDigits s) else none) = _
  rw [h2, if_pos ⟨h3, h4⟩]

theorem timeUint_two {n lo hi : Nat} (h : n < 100) (h3 : lo ≤ n) (h4 : n ≤ hi) : timeUint [dg (n / 10), dg (n % 10)] lo hi = some n := by
  rw [← zeroPad_two h, (zeroPad_eq 1 n h).1]
  exact timeUint_eq _ _ _ _ (lastDigits_dec _ _) (timeDigits_last _ _ h) h3 h4

theorem timeUint_four {n lo hi : Nat} (h : n < 10000) (h3 : lo ≤ n) (h4 : n ≤ hi) :
    timeUint [dg (n / 1000), dg (n / 100 % 10), dg (n / 10 % 10), dg (n % 10)] lo hi = some n := by
  rw [← zeroPad_four h, (zeroPad_eq 3 n h).1]
  exact timeUint_eq _ _ _ _ (lastDigits_dec _ _) (timeDigits_last _ _ h) h3 h4

/-! ## Fractions -/

theorem dropZeros_eq (s : GoStr) : ∃ k, s = dropZeros s ++ List.replicate k 48 := by
  unfold dropZeros
  have h := List.takeWhile_append_dropWhile (p := fun c : UInt8 => decide (c = 48)) (l := s.reverse)
  refine ⟨(s.reverse.takeWhile fun c => decide (c = 48)).length, ?_⟩
  have e : s.reverse.takeWhile (fun c => decide (c = 48)) = List.replicate (s.reverse.takeWhile fun c => decide (c = 48)).length 48 := by
    rw [List.eq_replicate_iff]
    refine ⟨rfl, fun c hc => ?_⟩
    have : ∀ l : GoStr, c ∈ l.takeWhile (fun c => decide (c = 48)) → c = 48 := by
      intro l
      induction l with
      | nil => intro h; cases h
      | cons a l ih =>
        intro h
        rw [List.takeWhile_cons] at h
        split at h
        · rename_i ha
          rcases List.mem_cons.1 h with rfl | h
          · simpa using ha
          · exact ih h
        · cases h
    exact this _ hc
  conv => lhs; rw [← List.reverse_reverse s, ← h, List.reverse_append, e, List.reverse_replicate]

theorem frac_facts {n : Nat} (h0 : n ≠ 0) (h : n < 10 ^ 9) :
    dropZeros (zeroPad 9 n) ≠ [] ∧ (∀ c ∈ dropZeros (zeroPad 9 n), isDec c = true) ∧ (dropZeros (zeroPad 9 n)).length ≤ 9 ∧ nanos (dropZeros (zeroPad 9 n)) = n ∧
      ((dropZeros (zeroPad 9 n)).length = 9 ↔ n % 10 ≠ 0) := by
  rw [(zeroPad_eq 8 n h).1]
  obtain ⟨k, hk⟩ := dropZeros_eq (lastDigits 9 n)
  have hlen := lastDigits_length 9 n
  have hval := timeDigits_last 9 n h
  have hdec := lastDigits_dec 9 n
  have hlast : lastDigits 9 n = lastDigits 8 (n / 10) ++ [dg (n % 10)] := rfl
  have hz : n % 10 ≠ 0 → dropZeros (lastDigits 9 n) = lastDigits 9 n := by
    intro hn
    rw [hlast]
    unfold dropZeros
    rw [List.reverse_append, List.reverse_singleton, List.singleton_append, List.dropWhile_cons_of_neg, List.reverse_cons, List.reverse_reverse]
    have := dg_toNat (k := n % 10) (by omega)
    intro e
    have e' : dg (n % 10) = 48 := by simpa using e
    rw [e'] at this
    have h48 : (48 : UInt8).toNat = 48 := rfl
    omega
  generalize hd : dropZeros (lastDigits 9 n) = ds at *
  have hl : ds.length + k = 9 := by
    have := congrArg List.length hk
    rw [hlen] at this
    simpa using this.symm
  have hv : timeDigits ds * 10 ^ k = n := by rw [← timeDigits_zeros, ← hk, hval]
  refine ⟨?_, fun c hc => hdec c (by rw [hk]; exact List.mem_append_left _ hc), by omega, ?_, ?_⟩
  · rintro rfl
    exact h0 (by rw [← hv]; simp [timeDigits])
  · unfold nanos
    rw [List.take_of_length_le (by omega), show 9 - ds.length = k by omega]
    exact hv
  · constructor
    · intro he hn
      have : k = 0 := by omega
      subst this
      simp only [List.replicate_zero, List.append_nil] at hk
      -- the last digit is a zero, which is dropped
      rw [hlast] at hk hd
      rw [hn] at hk hd
      unfold dropZeros at hd
      rw [List.reverse_append, List.reverse_singleton, List.singleton_append, List.dropWhile_cons_of_pos (by decide)] at hd
      have h1 : ((lastDigits 8 (n / 10)).reverse.dropWhile (fun c => decide (c = 48))).length ≤ 8 := by
        refine Nat.le_trans (List.dropWhile_sublist _).length_le ?_
        rw [List.length_reverse, lastDigits_length]
        omega
      have h2 := congrArg List.length hd
      rw [List.length_reverse] at h2
      omega
    · intro hn
      rw [hz hn]
      exact hlen

/-! ## Zones -/

theorem zone_text {off : Int} (h : off.natAbs < 86400) :
    fmtZone off = (if off = 0 then [90] else
      [if off.tdiv 60 < 0 then 45 else 43, dg ((off.tdiv 60).natAbs / 60 / 10), dg ((off.tdiv 60).natAbs / 60 % 10), 58, dg ((off.tdiv 60).natAbs % 60 / 10), dg ((off.tdiv 60).natAbs % 60 % 10)]) := by
  unfold fmtZone
  have hz : (off.tdiv 60).natAbs < 1440 := by
    rw [Int.natAbs_tdiv]
    show off.natAbs / 60 < 1440
    omega
  split
  · rfl
  · simp only
    rw [zeroPad_two (show (off.tdiv 60).natAbs / 60 < 100 by omega), zeroPad_two (show (off.tdiv 60).natAbs % 60 < 100 by omega)]
    rfl

theorem parseZone_fmt {off : Int} (h : off.natAbs < 86400) : parseZone (fmtZone off) = some (60 * off.tdiv 60) := by
  rw [zone_text h]
  have hz : (off.tdiv 60).natAbs < 1440 := by
    rw [Int.natAbs_tdiv]
    show off.natAbs / 60 < 1440
    omega
  generalize hzv : off.tdiv 60 = z at *
  split
  · rename_i h0
    subst h0
    have : z = 0 := by rw [← hzv]; rfl
    subst this
    rfl
  · have e1 := timeUint_two (n := z.natAbs / 60) (lo := 0) (hi := 23) (by omega) (by omega) (by omega)
    have e2 := timeUint_two (n := z.natAbs % 60) (lo := 0) (hi := 59) (by omega) (by omega) (by omega)
    have eh : (z.natAbs / 60 * 60 + z.natAbs % 60) * 60 = z.natAbs * 60 := by omega
    by_cases hs : z < 0
    · rw [if_pos hs]
      unfold parseZone
      rw [if_neg (by simp), if_neg (by simp)]
      rw [show timeSlice _ 1 3 = [dg (z.natAbs / 60 / 10), dg (z.natAbs / 60 % 10)] from rfl, show timeSlice _ 4 6 = [dg (z.natAbs % 60 / 10), dg (z.natAbs % 60 % 10)] from rfl, e1, e2]
      simp only [Option.bind_some]
      rw [if_pos (by simp), if_pos (by simp), eh]
      congr 1
      omega
    · rw [if_neg hs]
      unfold parseZone
      rw [if_neg (by simp), if_neg (by simp)]
      rw [show timeSlice _ 1 3 = [dg (z.natAbs / 60 / 10), dg (z.natAbs / 60 % 10)] from rfl, show timeSlice _ 4 6 = [dg (z.natAbs % 60 / 10), dg (z.natAbs % 60 % 10)] from rfl, e1, e2]
      simp only [Option.bind_some]
      rw [if_pos (by simp), if_neg (by simp), if_pos (by simp), eh]
      congr 1
      omega

theorem zone_head (off : Int) : ∃ c cs, fmtZone off = c :: cs ∧ isDec c = false ∧ c ≠ 46 := by
  unfold fmtZone
  split
  · exact ⟨90, [], rfl, by decide, by decide⟩
  · simp only
    split
    · exact ⟨45, _, rfl, by decide, by decide⟩
    · exact ⟨43, _, rfl, by decide, by decide⟩

theorem parseFrac_fmt {n : Nat} (h : n < 10 ^ 9) (off : Int) : parseFrac (fmtFrac n ++ fmtZone off) = (n, fmtZone off) := by
  obtain ⟨z, zs, hz, hzd, hz46⟩ := zone_head off
  by_cases h0 : n = 0
  · subst h0
    show parseFrac (fmtZone off) = _
    rw [hz]
    unfold parseFrac
    split
    · rename_i heq
      cases heq
      exact absurd rfl hz46
    · rfl
  · obtain ⟨f1, f2, f3, f4, _⟩ := frac_facts h0 h
    rw [fmtFrac, if_neg h0]
    generalize dropZeros (zeroPad 9 n) = ds at *
    match ds, f1 with
    | c :: cs, _ =>
      have e1 : (c :: cs ++ fmtZone off).takeWhile isDec = c :: cs := by
        rw [List.takeWhile_append_of_pos f2, hz, List.takeWhile_cons_of_neg (by simp [hzd])]
        simp
      have e2 : (c :: cs ++ fmtZone off).dropWhile isDec = fmtZone off := by
        rw [List.dropWhile_append_of_pos f2, hz, List.dropWhile_cons_of_neg (by simp [hzd])]
      show (if isDec c then (nanos ((c :: cs ++ fmtZone off).takeWhile isDec), (c :: cs ++ fmtZone off).dropWhile isDec) else _) = _
      rw [if_pos (f2 c (by simp)), e1, e2, f4]

/-! ## Date and time -/

/-- The local time, in seconds since the epoch, is between the beginning of the year 0 and the end of the year 9999. -/
def fourDigitYear (s : Int) : Prop := -62167219200 ≤ s ∧ s < 253402300800

theorem dateTime_text {s : Int} (h : fourDigitYear s) :
    ∃ y mo d hh mi ss : Nat, fmtDateTime s =
        [dg (y / 1000), dg (y / 100 % 10), dg (y / 10 % 10), dg (y % 10), 45, dg (mo / 10), dg (mo % 10), 45, dg (d / 10), dg (d % 10), 84, dg (hh / 10), dg (hh % 10), 58, dg (mi / 10),
          dg (mi % 10), 58, dg (ss / 10), dg (ss % 10)] ∧
      y ≤ 9999 ∧ 1 ≤ mo ∧ mo ≤ 12 ∧ 1 ≤ d ∧ d ≤ daysIn mo y ∧ d ≤ 31 ∧ hh ≤ 23 ∧ mi ≤ 59 ∧ ss ≤ 59 ∧
      (daysTo y mo d - daysToEpoch) * 86400 + ((hh * 3600 + mi * 60 + ss : Nat) : Int) = s := by
  obtain ⟨g1, g2, g3, g4, g5⟩ := civil_facts (s / 86400 + daysToEpoch)
  obtain ⟨y1, y2⟩ := (civil_year (s / 86400 + daysToEpoch)).2 (by unfold fourDigitYear at h; unfold daysToEpoch; omega)
  unfold fmtDateTime
  generalize civil (s / 86400 + daysToEpoch) = c at *
  obtain ⟨y, mo, d⟩ := c
  simp only at *
  have h31 : d ≤ 31 := by
    refine Nat.le_trans g5 ?_
    unfold daysIn
    cases isLeap y <;>
    · match mo, g2, g3 with
      | 1, _, _ | 2, _, _ | 3, _, _ | 4, _, _ | 5, _, _ | 6, _, _ | 7, _, _ | 8, _, _ | 9, _, _ | 10, _, _ | 11, _, _ | 12, _, _ => decide
      | n + 13, _, h => omega
  have hyy : ((y.natAbs : Nat) : Int) = y := by omega
  refine ⟨y.natAbs, mo, d, (s % 86400).toNat / 3600, (s % 86400).toNat / 60 % 60, (s % 86400).toNat % 60, ?_, by omega, g2, g3, g4, by rw [hyy]; exact g5, h31, by omega, by omega, by omega, ?_⟩
  · rw [fmtYear, if_neg (by omega), zeroPad_four (by omega), zeroPad_two (show mo < 100 by omega), zeroPad_two (show d < 100 by omega),
      zeroPad_two (show (s % 86400).toNat / 3600 < 100 by omega), zeroPad_two (show (s % 86400).toNat / 60 % 60 < 100 by omega), zeroPad_two (show (s % 86400).toNat % 60 < 100 by omega)]
    rfl
  · rw [hyy, g1]
    omega

/-- What is read from the text of a time: seconds of the offset are lost. -/
theorem parse_format (v : GoTime) (h1 : fourDigitYear (v.sec + v.off)) (h2 : v.nsec < 10 ^ 9) (h3 : v.off.natAbs < 86400) :
    parseRFC3339 (goFormatTime v) = some { sec := v.sec + v.off - 60 * v.off.tdiv 60, nsec := v.nsec, off := 60 * v.off.tdiv 60 } := by
  obtain ⟨y, mo, d, hh, mi, ss, e, g1, g2, g3, g4, g5, g6, g7, g8, g9, g10⟩ := dateTime_text h1
  unfold goFormatTime
  rw [e, List.append_assoc]
  have ef := parseFrac_fmt h2 v.off
  have ez := parseZone_fmt h3
  generalize hfz : fmtFrac v.nsec ++ fmtZone v.off = fz at *
  unfold parseRFC3339
  rw [if_neg (by simp)]
  rw [show timeSlice _ 0 4 = [dg (y / 1000), dg (y / 100 % 10), dg (y / 10 % 10), dg (y % 10)] from rfl, timeUint_four (by omega) (by omega) g1, Option.bind_some,
    show timeSlice _ 5 7 = [dg (mo / 10), dg (mo % 10)] from rfl, timeUint_two (by omega) g2 g3, Option.bind_some,
    show timeSlice _ 8 10 = [dg (d / 10), dg (d % 10)] from rfl, timeUint_two (by omega) g4 g5, Option.bind_some,
    show timeSlice _ 11 13 = [dg (hh / 10), dg (hh % 10)] from rfl, timeUint_two (by omega) (by omega) g7, Option.bind_some,
    show timeSlice _ 14 16 = [dg (mi / 10), dg (mi % 10)] from rfl, timeUint_two (by omega) (by omega) g8, Option.bind_some,
    show timeSlice _ 17 19 = [dg (ss / 10), dg (ss % 10)] from rfl, timeUint_two (by omega) (by omega) g9, Option.bind_some,
    if_pos ⟨rfl, rfl, rfl, rfl, rfl⟩]
  show ((parseZone (parseFrac fz).2).bind fun off => _) = _
  rw [ef, ez, Option.bind_some, g10]
  show some { sec := v.sec + v.off - 60 * v.off.tdiv 60, nsec := (parseFrac fz).1, off := _ : GoTime } = _
  rw [ef]

end Verif
