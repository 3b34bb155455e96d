import Verif.Lemmas.FloatPad

/-!
# A float written with more digits does not get longer before the point
-/

namespace Verif
namespace FloatFmt

/-- The next greater float is at least as far away as the next smaller one. -/
theorem units_convex (f : FloatFmt) (b : Nat) (hb : 0 < b) : 2 * f.units b ≤ f.units (b + 1) + f.units (b - 1) := by
  by_cases h : b % 2 ^ f.mant ≠ 0 ∨ b / 2 ^ f.mant ≤ 1
  · rw [units_symmetric f b hb h]; omega
  · have h1 : b % 2 ^ f.mant = 0 := Decidable.byContradiction fun hn => h (.inl hn)
    have h2 : 2 ≤ b / 2 ^ f.mant := Nat.lt_of_not_le fun hn => h (.inr hn)
    obtain ⟨s, hs⟩ : ∃ s, b / 2 ^ f.mant = s + 2 := ⟨b / 2 ^ f.mant - 2, by omega⟩
    have hd := Nat.div_add_mod b (2 ^ f.mant)
    have hb' : b = (s + 2) * 2 ^ f.mant := by
      rw [hs, h1, Nat.add_zero, Nat.mul_comm] at hd; exact hd.symm
    obtain ⟨u1, u2, u3⟩ := units_pow f s
    rw [hb', u1, u2]
    have : 2 ^ (s + 1) = 2 * 2 ^ s := by rw [Nat.pow_succ]; omega
    omega

theorem tryDigits_pos (f : FloatFmt) (b j c : Nat) (h : f.tryDigits b j = some c) : 1 ≤ c := by
  unfold tryDigits at h
  simp only at h
  grind

/-- Where the search ends: all positions before are tried in vain. -/
theorem shortest_spec (f : FloatFmt) (b fuel j : Nat) :
    j ≤ (f.shortest b fuel j).2 ∧ (∀ i, j ≤ i → i < (f.shortest b fuel j).2 → f.tryDigits b i = none) ∧
      (f.tryDigits b (f.shortest b fuel j).2 = some (f.shortest b fuel j).1 ∨ (f.shortest b fuel j).2 = j + fuel) := by
  induction fuel generalizing j with
  | zero => exact ⟨Nat.le_refl _, fun i h1 h2 => absurd h2 (by simp only [shortest]; omega), .inr rfl⟩
  | succ fuel ih =>
    unfold shortest
    cases h : f.tryDigits b j with
    | some c => exact ⟨Nat.le_refl _, fun i h1 h2 => absurd h2 (by simp only; omega), .inl h⟩
    | none =>
      obtain ⟨h1, h2, h3⟩ := ih (j + 1)
      refine ⟨by simp only; omega, fun i hi1 hi2 => ?_, ?_⟩
      · by_cases e : i = j
        · rw [e]; exact h
        · exact h2 i (by omega) hi2
      · rcases h3 with h3 | h3
        · exact .inl h3
        · exact .inr (by simp only; omega)

/-- The text of a finite float other than zero: a decimal of the value found by the search. -/
theorem formatShortest_found (f : FloatFmt) (b : Nat) (hb : b ≠ 0) :
    ∃ c k, f.formatShortest b = decimal c k ∧
      c * 10 ^ (f.shortest b (f.maxDigits + f.scale) 0).2 = (f.shortest b (f.maxDigits + f.scale) 0).1 * 10 ^ f.maxDigits * 10 ^ k := by
  unfold formatShortest
  rw [if_neg hb]
  generalize f.shortest b (f.maxDigits + f.scale) 0 = cj
  obtain ⟨c, j⟩ := cj
  simp only
  split
  · next hj =>
    refine ⟨c * 10 ^ (f.maxDigits - j), 0, by simp [decimal], ?_⟩
    rw [Nat.mul_assoc, ← Nat.pow_add, show f.maxDigits - j + j = f.maxDigits by omega]; simp
  · next hj =>
    refine ⟨_, _, rfl, ?_⟩
    have hv := dropZeros_value c (j - f.maxDigits)
    have h10 : (10 : Nat) ^ j = 10 ^ (j - f.maxDigits) * 10 ^ f.maxDigits := by rw [← Nat.pow_add]; congr 1; omega
    rw [h10, ← Nat.mul_assoc, hv]
    grind

theorem fmtNat_length_le {n m : Nat} (h : n < 10 ^ (m + 1)) : (fmtNat n).length ≤ m + 1 := by
  induction m generalizing n with
  | zero => rw [fmtNat, if_pos (by simpa using h)]; simp
  | succ m ih =>
    rw [fmtNat]
    split
    · simp
    · have := ih (n := n / 10) (Nat.div_lt_of_lt_mul (by rw [Nat.mul_comm, ← Nat.pow_succ]; exact h))
      simp only [List.length_append, List.length_singleton]
      omega

theorem lt_fmtNat_length (n : Nat) : n < 10 ^ (fmtNat n).length := by
  fun_induction fmtNat n with
  | case1 n h => simpa using h
  | case2 n h ih =>
    simp only [List.length_append, List.length_singleton, Nat.pow_succ]
    omega

/-- **The main point**: if the shortest decimal is less than `10^m`, then so is the float rounded to any greater number of digits after the point. -/
theorem rounded_lt (f : FloatFmt) (b c k p m : Nat) (hb : b ≠ 0) (hscale : 0 < f.scale) (hmax : f.units b < 2 ^ f.scale * 10 ^ f.maxDigits)
    (hk : k ≤ p) (hm : 1 ≤ m) (hfound : c * 10 ^ (f.shortest b (f.maxDigits + f.scale) 0).2 = (f.shortest b (f.maxDigits + f.scale) 0).1 * 10 ^ f.maxDigits * 10 ^ k)
    (hacc : f.nearest (c * 2 ^ f.scale) (10 ^ k) = b) (hc : c < 10 ^ (m + k)) : nearestNat (f.units b * 10 ^ p) (2 ^ f.scale) < 10 ^ (m + p) := by
  have P : ∀ n, 0 < 10 ^ n := fun n => Nat.pow_pos (by omega)
  have hS : 0 < 2 ^ f.scale := Nat.two_pow_pos _
  obtain ⟨_, hnone, hend⟩ := shortest_spec f b (f.maxDigits + f.scale) 0
  generalize f.shortest b (f.maxDigits + f.scale) 0 = cj at *
  obtain ⟨cs, js⟩ := cj
  simp only at hfound hnone hend
  apply Nat.lt_of_not_le
  intro hX
  -- the decimal that is read back, with `p` digits
  have hc' : c * 10 ^ (p - k) + 10 ^ (p - k) ≤ 10 ^ (m + p) := by
    have : (c + 1) * 10 ^ (p - k) ≤ 10 ^ (m + k) * 10 ^ (p - k) := Nat.mul_le_mul_right _ hc
    rw [← Nat.pow_add, show m + k + (p - k) = m + p by omega, Nat.add_mul, Nat.one_mul] at this
    exact this
  have hacc' : f.nearest (c * 10 ^ (p - k) * 2 ^ f.scale) (10 ^ p) = b := by
    rw [← hacc]
    refine nearest_congr f (P _) (P _) ?_
    rw [show p = (p - k) + k by omega, Nat.pow_add, Nat.add_sub_cancel]
    simp only [Nat.mul_comm, Nat.mul_left_comm, Nat.mul_assoc]
  have hX2 : (2 * 10 ^ (m + p)) * 2 ^ f.scale ≤ 2 * (f.units b * 10 ^ p) + 2 ^ f.scale := by
    have hdm := Nat.div_add_mod (f.units b * 10 ^ p) (2 ^ f.scale)
    unfold nearestNat at hX
    have hmod := Nat.mod_lt (f.units b * 10 ^ p) hS
    generalize f.units b * 10 ^ p / 2 ^ f.scale = q at *
    generalize f.units b * 10 ^ p % 2 ^ f.scale = r at *
    split at hX
    · have := Nat.mul_le_mul_left (2 ^ f.scale) hX
      rw [Nat.mul_assoc, Nat.mul_comm (10 ^ (m + p))]
      omega
    · have := Nat.mul_le_mul_left (2 ^ f.scale) hX
      rw [Nat.mul_add, Nat.mul_one] at this
      rw [Nat.mul_assoc, Nat.mul_comm (10 ^ (m + p))]
      omega
  have hmle : m ≤ f.maxDigits := by
    apply Nat.le_of_not_lt
    intro hlt
    have h1 : f.units b * 10 ^ p < 2 ^ f.scale * 10 ^ f.maxDigits * 10 ^ p := Nat.mul_lt_mul_of_pos_right hmax (P p)
    have h2 : 10 * (10 ^ f.maxDigits * 10 ^ p) ≤ 10 ^ (m + p) := by
      rw [← Nat.pow_add, ← Nat.pow_succ']
      exact Nat.pow_le_pow_right (by omega) (by omega)
    have h3 := Nat.mul_le_mul_right (2 ^ f.scale) h2
    have h4 : 1 ≤ 10 ^ f.maxDigits * 10 ^ p := Nat.mul_pos (P _) (P _)
    have h5 := Nat.mul_le_mul_right (2 ^ f.scale) h4
    rw [Nat.mul_assoc] at h1
    rw [Nat.mul_comm (10 ^ f.maxDigits * 10 ^ p)] at h5
    rw [show 10 * (10 ^ f.maxDigits * 10 ^ p) * 2 ^ f.scale = 10 * (2 ^ f.scale * (10 ^ f.maxDigits * 10 ^ p)) by grind] at h3
    rw [show 2 * 10 ^ (m + p) * 2 ^ f.scale = 2 * (10 ^ (m + p) * 2 ^ f.scale) by grind] at hX2
    omega
  obtain ⟨m', rfl⟩ : ∃ m', m = m' + 1 := ⟨m - 1, by omega⟩
  obtain ⟨e, he⟩ : ∃ e, f.maxDigits = m' + 1 + e := ⟨f.maxDigits - (m' + 1), by omega⟩
  by_cases hA : 10 ^ (m' + 1) * 2 ^ f.scale ≤ f.units b
  · -- the float is not less than `10^m`: the search would have stopped before
    have hjs : e < js := by
      apply Nat.lt_of_not_le
      intro hle
      have hcs : 1 ≤ cs := by
        rcases hend with h | h
        · exact tryDigits_pos f b js cs h
        · omega
      have h1 : c * 10 ^ js < 10 ^ (m' + 1 + k) * 10 ^ js := Nat.mul_lt_mul_of_pos_right hc (P js)
      have h2 : 1 * (10 ^ f.maxDigits * 10 ^ k) ≤ cs * (10 ^ f.maxDigits * 10 ^ k) := Nat.mul_le_mul_right _ hcs
      rw [← Nat.mul_assoc cs, ← hfound, Nat.one_mul, ← Nat.pow_add] at h2
      rw [← Nat.pow_add] at h1
      have h3 : 10 ^ (m' + 1 + k + js) ≤ 10 ^ (f.maxDigits + k) := Nat.pow_le_pow_right (by omega) (by omega)
      omega
    have hn := hnone e (Nat.zero_le _) hjs
    have hd : 0 < 2 ^ f.scale * 10 ^ f.maxDigits := Nat.mul_pos hS (P _)
    have hpow : (10 : Nat) ^ f.maxDigits = 10 ^ (m' + 1) * 10 ^ e := by rw [he, Nat.pow_add]
    have hq : 1 ≤ f.units b * 10 ^ e / (2 ^ f.scale * 10 ^ f.maxDigits) := by
      rw [Nat.le_div_iff_mul_le hd, Nat.one_mul, hpow, ← Nat.mul_assoc]
      exact Nat.mul_le_mul_right _ (by rw [Nat.mul_comm]; exact hA)
    have hqd := Nat.div_mul_le_self (f.units b * 10 ^ e) (2 ^ f.scale * 10 ^ f.maxDigits)
    unfold tryDigits at hn
    simp only at hn
    generalize f.units b * 10 ^ e / (2 ^ f.scale * 10 ^ f.maxDigits) = q at *
    have hdown : f.accepts b q e = true := by
      unfold accepts
      simp only [decide_eq_true_eq]
      have h1 : f.nearest (c * 2 ^ f.scale * 10 ^ e) (10 ^ k * 10 ^ e) = b := by
        rw [← hacc]
        exact nearest_congr f (Nat.mul_pos (P _) (P _)) (P _) (by simp only [Nat.mul_comm, Nat.mul_left_comm, Nat.mul_assoc])
      rw [nearest_congr f (n' := q * 10 ^ f.maxDigits * 2 ^ f.scale * 10 ^ k) (d' := 10 ^ k * 10 ^ e) (P _) (Nat.mul_pos (P _) (P _)) (by simp only [Nat.mul_comm, Nat.mul_left_comm, Nat.mul_assoc])]
      refine nearest_between_self f _ _ _ b (Nat.mul_pos (P _) (P _)) h1 (.inl ⟨?_, ?_⟩)
      · have h2 : c * (2 ^ f.scale * 10 ^ e) ≤ 10 ^ (m' + 1 + k) * (2 ^ f.scale * 10 ^ e) := Nat.mul_le_mul_right _ (Nat.le_of_lt hc)
        have h3 : 1 * (10 ^ f.maxDigits * 2 ^ f.scale * 10 ^ k) ≤ q * (10 ^ f.maxDigits * 2 ^ f.scale * 10 ^ k) := Nat.mul_le_mul_right _ hq
        have h4 : 10 ^ (m' + 1 + k) * (2 ^ f.scale * 10 ^ e) = 10 ^ f.maxDigits * 2 ^ f.scale * 10 ^ k := by
          rw [hpow, Nat.pow_add 10 (m' + 1) k]; simp only [Nat.mul_comm, Nat.mul_left_comm, Nat.mul_assoc]
        rw [Nat.mul_assoc c, Nat.mul_assoc q, Nat.mul_assoc q]
        omega
      · have h2 := Nat.mul_le_mul_right (10 ^ k) hqd
        rw [show q * 10 ^ f.maxDigits * 2 ^ f.scale * 10 ^ k = q * (2 ^ f.scale * 10 ^ f.maxDigits) * 10 ^ k by simp only [Nat.mul_comm, Nat.mul_left_comm, Nat.mul_assoc],
          show f.units b * (10 ^ k * 10 ^ e) = f.units b * 10 ^ e * 10 ^ k by simp only [Nat.mul_comm, Nat.mul_left_comm, Nat.mul_assoc]]
        exact h2
    rw [if_neg (by omega), hdown] at hn
    revert hn
    cases (decide (f.units b * 10 ^ e % (2 ^ f.scale * 10 ^ f.maxDigits) ≠ 0) && f.accepts b (q + 1) e) <;> simp
  · -- the float is just below `10^m`: the search would have stopped at `10^m`
    have hB : f.units b < 10 ^ (m' + 1) * 2 ^ f.scale := Nat.lt_of_not_le hA
    have hd : 0 < 2 ^ f.scale * 10 ^ f.maxDigits := Nat.mul_pos hS (P _)
    have hpow : (10 : Nat) ^ f.maxDigits = 10 ^ m' * 10 ^ (e + 1) := by rw [he, ← Nat.pow_add]; congr 1; omega
    have hbefore : ∀ i, i ≤ e → f.tryDigits b i = none := by
      intro i hi
      unfold tryDigits
      simp only
      rw [if_pos]
      rw [Nat.div_eq_zero_iff]
      right
      have h1 : f.units b * 10 ^ i < 10 ^ (m' + 1) * 2 ^ f.scale * 10 ^ i := Nat.mul_lt_mul_of_pos_right hB (P i)
      have h2 : (10 : Nat) ^ (m' + 1) * 10 ^ i ≤ 10 ^ f.maxDigits := by rw [← Nat.pow_add]; exact Nat.pow_le_pow_right (by omega) (by omega)
      have h3 := Nat.mul_le_mul_left (2 ^ f.scale) h2
      rw [show 10 ^ (m' + 1) * 2 ^ f.scale * 10 ^ i = 2 ^ f.scale * (10 ^ (m' + 1) * 10 ^ i) by simp only [Nat.mul_comm, Nat.mul_left_comm, Nat.mul_assoc]] at h1
      omega
    have hten : f.tryDigits b (e + 1) = some 10 := by
      have hn1 : f.units b * 10 ^ (e + 1) < 10 * (2 ^ f.scale * 10 ^ f.maxDigits) := by
        have h1 := Nat.mul_lt_mul_of_pos_right hB (P (e + 1))
        rw [hpow]
        rw [show 10 ^ (m' + 1) * 2 ^ f.scale * 10 ^ (e + 1) = 10 * (2 ^ f.scale * (10 ^ m' * 10 ^ (e + 1))) by rw [Nat.pow_succ 10 m']; simp only [Nat.mul_comm, Nat.mul_left_comm, Nat.mul_assoc]] at h1
        exact h1
      have hn2 : 19 * (2 ^ f.scale * 10 ^ f.maxDigits) ≤ 2 * (f.units b * 10 ^ (e + 1)) := by
        have h0 : 1 ≤ 10 ^ m' * 10 ^ p := Nat.mul_pos (P _) (P _)
        have h1 : 1 * 2 ^ f.scale ≤ 10 ^ m' * 10 ^ p * 2 ^ f.scale := Nat.mul_le_mul_right _ h0
        have h2 : 2 * 10 ^ (m' + 1 + p) * 2 ^ f.scale = 20 * (10 ^ m' * 10 ^ p * 2 ^ f.scale) := by
          rw [Nat.pow_add, Nat.pow_succ 10 m']; grind
        rw [h2] at hX2
        have h3 : 19 * (10 ^ m' * 2 ^ f.scale) * 10 ^ p ≤ 2 * f.units b * 10 ^ p := by
          rw [show 19 * (10 ^ m' * 2 ^ f.scale) * 10 ^ p = 19 * (10 ^ m' * 10 ^ p * 2 ^ f.scale) by grind, Nat.mul_assoc 2]
          omega
        have h4 := Nat.le_of_mul_le_mul_right h3 (P p)
        have h5 := Nat.mul_le_mul_right (10 ^ (e + 1)) h4
        rw [hpow]
        rw [show 19 * (10 ^ m' * 2 ^ f.scale) * 10 ^ (e + 1) = 19 * (2 ^ f.scale * (10 ^ m' * 10 ^ (e + 1))) by grind, Nat.mul_assoc 2] at h5
        exact h5
      have hup : f.accepts b 10 (e + 1) = true := by
        unfold accepts
        simp only [decide_eq_true_eq]
        have hT : f.nearest (10 ^ (m' + 1 + p) * 2 ^ f.scale) (10 ^ p) = b := by
          have hcv := Nat.mul_le_mul_right (10 ^ p) (units_convex f b (by omega))
          rw [Nat.add_mul, Nat.mul_assoc] at hcv
          have hBp : f.units b * 10 ^ p < 10 ^ (m' + 1 + p) * 2 ^ f.scale := by
            have := Nat.mul_lt_mul_of_pos_right hB (P p)
            rw [Nat.pow_add]
            rw [show 10 ^ (m' + 1) * 2 ^ f.scale * 10 ^ p = 10 ^ (m' + 1) * 10 ^ p * 2 ^ f.scale by simp only [Nat.mul_comm, Nat.mul_left_comm, Nat.mul_assoc]] at this
            exact this
          have hcS : c * 10 ^ (p - k) * 2 ^ f.scale + 2 ^ f.scale ≤ 10 ^ (m' + 1 + p) * 2 ^ f.scale := by
            have h1 : c * 10 ^ (p - k) + 1 ≤ 10 ^ (m' + 1 + p) := by have := P (p - k); omega
            have := Nat.mul_le_mul_right (2 ^ f.scale) h1
            rw [Nat.add_mul, Nat.one_mul] at this
            exact this
          rw [nearest_eq_iff f _ _ b (P p), Nat.add_mul, Nat.add_mul] at hacc' ⊢
          rw [Nat.mul_assoc 2] at hX2
          left
          generalize 10 ^ (m' + 1 + p) * 2 ^ f.scale = TS at *
          generalize c * 10 ^ (p - k) * 2 ^ f.scale = CS at *
          generalize f.units b * 10 ^ p = N at *
          generalize f.units (b + 1) * 10 ^ p = N1 at *
          generalize f.units (b - 1) * 10 ^ p = N0 at *
          omega
        rw [← hT]
        refine nearest_congr f (P _) (P _) ?_
        rw [hpow, Nat.pow_add 10 (m' + 1) p, Nat.pow_succ 10 m']
        simp only [Nat.mul_comm, Nat.mul_left_comm, Nat.mul_assoc]
      unfold tryDigits
      simp only
      have hdm := Nat.div_add_mod (f.units b * 10 ^ (e + 1)) (2 ^ f.scale * 10 ^ f.maxDigits)
      have hml := Nat.mod_lt (f.units b * 10 ^ (e + 1)) hd
      have hq : f.units b * 10 ^ (e + 1) / (2 ^ f.scale * 10 ^ f.maxDigits) = 9 :=
        Nat.div_eq_of_lt_le (by omega) (by omega)
      rw [hq] at hdm ⊢
      generalize f.units b * 10 ^ (e + 1) % (2 ^ f.scale * 10 ^ f.maxDigits) = r at *
      generalize 2 ^ f.scale * 10 ^ f.maxDigits = d at *
      rw [if_neg (by omega), hup, decide_eq_true (show r ≠ 0 by omega), if_neg (show ¬ (2 * r < d ∨ 2 * r = d ∧ 9 % 2 = 0) by omega)]
      cases f.accepts b 9 (e + 1) <;> simp
    have hjs1 : js ≤ e + 1 := by
      apply Nat.le_of_not_lt
      intro h
      have := hnone (e + 1) (Nat.zero_le _) h
      rw [hten] at this
      exact nomatch this
    have hsome : f.tryDigits b js = some cs := by
      rcases hend with h | h
      · exact h
      · omega
    have hjs : js = e + 1 := by
      apply Nat.le_antisymm hjs1
      apply Nat.lt_of_not_le
      intro h
      rw [hbefore js h] at hsome
      exact nomatch hsome
    subst hjs
    rw [hten] at hsome
    have hcs : cs = 10 := (Option.some.inj hsome).symm
    rw [hcs, hpow] at hfound
    have : c * 10 ^ (e + 1) = 10 ^ (m' + 1 + k) * 10 ^ (e + 1) := by
      rw [hfound, Nat.pow_add 10 (m' + 1) k, Nat.pow_succ 10 m']; simp only [Nat.mul_comm, Nat.mul_left_comm, Nat.mul_assoc]
    have := Nat.eq_of_mul_eq_mul_right (P (e + 1)) this
    omega

/-- The text of a finite float: the decimal that the search has found, which is read as the float. -/
theorem formatShortest_both (f : FloatFmt) (b : Nat) (hb : b ≠ 0) :
    ∃ c k, f.formatShortest b = decimal c k ∧ f.nearest (c * 2 ^ f.scale) (10 ^ k) = b ∧
      c * 10 ^ (f.shortest b (f.maxDigits + f.scale) 0).2 = (f.shortest b (f.maxDigits + f.scale) 0).1 * 10 ^ f.maxDigits * 10 ^ k := by
  obtain ⟨c, k, h1, h2⟩ := formatShortest_found f b hb
  refine ⟨c, k, h1, ?_, h2⟩
  have hacc := shortest_accepts f b (f.maxDigits + f.scale) 0 (by omega)
  unfold accepts at hacc
  simp only [decide_eq_true_eq] at hacc
  have P : ∀ n, 0 < 10 ^ n := fun n => Nat.pow_pos (by omega)
  refine Eq.trans (nearest_congr f (P _) (P _) ?_) hacc
  rw [Nat.mul_right_comm, h2]
  simp only [Nat.mul_comm, Nat.mul_left_comm, Nat.mul_assoc]

/-- The part of the text before the point. -/
theorem decimalParts_whole (neg : Bool) (c k : Nat) : (decimalParts ((if neg then [45] else []) ++ decimal c k)).1 = ((if neg then [45] else []) ++ fmtNat (c / 10 ^ k) : GoStr).length ∧
    (decimalParts ((if neg then [45] else []) ++ decimal c k)).2.1 = if k = 0 then 0 else 1 := by
  obtain ⟨_, h2, _⟩ := fmtNat_digits (c / 10 ^ k)
  have hno : ∀ x ∈ (if neg then [45] else []) ++ fmtNat (c / 10 ^ k), decide (x = (46 : UInt8)) = false := by
    intro x hx
    rcases List.mem_append.1 hx with hx | hx
    · cases neg <;> simp at hx
      subst hx; decide
    · have := h2 x hx
      simp only [decide_eq_false_iff_not]
      rintro rfl
      exact absurd this (by decide)
  unfold decimal
  rw [← List.append_assoc]
  generalize (if neg then [45] else []) ++ fmtNat (c / 10 ^ k) = w at *
  unfold decimalParts
  by_cases hk : k = 0
  · have : w.findIdx? (fun x => decide (x = (46 : UInt8))) = none := by rw [List.findIdx?_eq_none_iff]; exact hno
    simp only [hk, if_true, List.append_nil, this, and_self]
  · have : (w ++ 46 :: lastDigits k c).findIdx? (fun x => decide (x = (46 : UInt8))) = some w.length := by
      rw [List.findIdx?_append, List.findIdx?_eq_none_iff.2 hno]
      simp [List.findIdx?_cons]
    simp only [hk, if_false, this, and_self]

theorem format_finite (f : FloatFmt) (g : Nat → GoStr) (neg : Bool) (b : Nat) (hb : b < f.inf) : f.format g neg b = (if neg then [45] else []) ++ g b := by
  unfold format
  rw [if_neg (by omega), if_neg (by omega)]

/-- A finite float in a column with precision `p`: a sign and digits, no more of them than in its own text, and, unless the precision is zero, a point and `p` more bytes. -/
theorem float_field (f : FloatFmt) (hscale : 0 < f.scale) (hmax : f.units f.inf ≤ 2 ^ f.scale * 10 ^ f.maxDigits) (neg : Bool) (b p : Nat) (hb : b < f.inf)
    (hp : (decimalParts (f.format f.formatShortest neg b)).2.2 ≤ p) :
    ∃ whole rest, padTrailingZeros (f.format (fun b => f.formatPrec b p) neg b) = ((if neg then [45] else []) ++ whole) ++ rest ∧ whole ≠ [] ∧ (∀ c ∈ whole, isDigit c = true) ∧
      ((p = 0 ∧ rest = []) ∨ (p ≠ 0 ∧ ∃ ds n, rest = 46 :: ds ++ List.replicate n 32 ∧ ds ≠ [] ∧ (∀ c ∈ ds, isDigit c = true) ∧ ds.length + n = p)) ∧
      ((if neg then [45] else []) ++ whole : GoStr).length ≤ (decimalParts (f.format f.formatShortest neg b)).1 := by
  have hlen : (fmtNat (nearestNat (f.units b * 10 ^ p) (2 ^ f.scale) / 10 ^ p)).length + (if neg then [45] else [] : GoStr).length ≤ (decimalParts (f.format f.formatShortest neg b)).1 := by
    rw [format_finite f _ neg b hb] at hp ⊢
    by_cases h0 : b = 0
    · subst h0
      have e1 : f.formatShortest 0 = decimal 0 0 := by simp [formatShortest, decimal, fmtNat]
      have e2 : nearestNat (f.units 0 * 10 ^ p) (2 ^ f.scale) = 0 := by
        have : f.units 0 = 0 := by simp [units]
        rw [this]
        simp [nearestNat, Nat.two_pow_pos]
      rw [e1, e2, (decimalParts_whole neg 0 0).1]
      simp
      omega
    · obtain ⟨c, k, h1, h2, h3⟩ := formatShortest_both f b h0
      rw [h1] at hp ⊢
      rw [decimalParts_decimal] at hp
      rw [(decimalParts_whole neg c k).1, List.length_append, Nat.add_comm]
      apply Nat.add_le_add_left
      have hpos : 0 < (fmtNat (c / 10 ^ k)).length := List.length_pos_iff.2 (fmtNat_digits _).2.2
      have hc := lt_fmtNat_length (c / 10 ^ k)
      generalize (fmtNat (c / 10 ^ k)).length = m at *
      have P : ∀ n, 0 < 10 ^ n := fun n => Nat.pow_pos (by omega)
      have hc' : c < 10 ^ (m + k) := by rw [Nat.pow_add]; rwa [Nat.div_lt_iff_lt_mul (P k)] at hc
      have := rounded_lt f b c k p m h0 hscale (Nat.lt_of_lt_of_le (units_mono f hb) hmax) hp hpos h3 h2 hc'
      obtain ⟨m', rfl⟩ : ∃ m', m = m' + 1 := ⟨m - 1, by omega⟩
      refine fmtNat_length_le ?_
      rw [Nat.div_lt_iff_lt_mul (P p), ← Nat.pow_add]
      exact this
  generalize hX : nearestNat (f.units b * 10 ^ p) (2 ^ f.scale) = X at hlen
  have hfmt : f.format (fun b => f.formatPrec b p) neg b = (if neg then [45] else []) ++ decimal X p := by
    rw [format_finite f _ neg b hb, ← hX]
    rfl
  obtain ⟨_, d2, d3⟩ := fmtNat_digits (X / 10 ^ p)
  obtain ⟨_, g2, g3⟩ := lastDigits_digits p X
  have hno : (46 : UInt8) ∉ (if neg then [45] else []) ++ fmtNat (X / 10 ^ p) := by
    intro hx
    rcases List.mem_append.1 hx with hx | hx
    · cases neg <;> simp at hx
    · exact absurd (d2 _ hx) (by decide)
  rw [hfmt]
  unfold decimal
  by_cases hp0 : p = 0
  · refine ⟨fmtNat (X / 10 ^ p), [], ?_, d3, d2, .inl ⟨hp0, rfl⟩, by rw [List.length_append]; omega⟩
    rw [if_pos hp0, List.append_nil, List.append_nil, (C50_noPoint _ hno).1]
  · obtain ⟨f', n, ⟨s1, _, s3, _⟩, _, hpad⟩ := C50_shape ((if neg then [45] else []) ++ fmtNat (X / 10 ^ p)) (lastDigits p X) (fun h => absurd (g2 _ h) (by decide))
    have hne : lastDigits p X ≠ [] := by
      intro e
      rw [e] at g3
      exact hp0 g3.symm
    refine ⟨fmtNat (X / 10 ^ p), 46 :: f' ++ List.replicate n 32, ?_, d3, d2, .inr ⟨hp0, f', n, rfl, s3 hne, ?_, ?_⟩, by rw [List.length_append]; omega⟩
    · rw [if_neg hp0, ← List.append_assoc, hpad, List.append_assoc, List.append_assoc]
    · intro c hc
      exact g2 c (by rw [s1]; exact List.mem_append_left _ hc)
    · rw [← g3, s1]; simp

end FloatFmt
end Verif
