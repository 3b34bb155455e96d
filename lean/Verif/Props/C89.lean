import Verif.Model.Utility

/-!
# C89: UtilRound

The number of units that is to be rounded is the fraction `num / den`; all claims are multiplied by `2 * den`.
-/

namespace Verif

/-- **C89**, for numbers that are not negative: the result is the nearest whole number of units, the upper one half way between two.
Missing: negative numbers, for which this is false of the code (`C89_false`, `C89_negative`). -/
theorem C89_partial (num : Int) (den : Nat) (hd : 0 < den) (h0 : 0 ≤ num) :
    (2 * utilRound num den - 1) * den ≤ 2 * num ∧ 2 * num < (2 * utilRound num den + 1) * den := by
  have hd' : (0 : Int) < den := by omega
  have h1 := Int.mul_ediv_add_emod num den
  have h2 := Int.emod_nonneg num (Int.ne_of_gt hd')
  have h3 := Int.emod_lt_of_pos num hd'
  unfold utilRound
  rw [Int.tmod_eq_emod_of_nonneg h0]
  generalize hq : num / (den : Int) = q at h1
  generalize hm : num % (den : Int) = m at h1 h2 h3
  split
  · rename_i h
    have e : (-num) / (den : Int) = -q - 1 := by
      refine (Int.ediv_emod_unique (r := den - m) hd').2 ⟨?_, by omega, by omega⟩ |>.1
      rw [Int.mul_sub, Int.mul_neg]
      omega
    have e1 : (2 * -(-q - 1) - 1) * (den : Int) = 2 * (den * q) + den := by
      rw [show 2 * -(-q - 1) - 1 = 2 * q + 1 by omega, Int.add_mul, Int.mul_assoc, Int.mul_comm q]
      omega
    have e2 : (2 * -(-q - 1) + 1) * (den : Int) = 2 * (den * q) + 3 * den := by
      rw [show 2 * -(-q - 1) + 1 = 2 * q + 3 by omega, Int.add_mul, Int.mul_assoc, Int.mul_comm q]
    rw [e, e1, e2]
    omega
  · rename_i h
    have e1 : (2 * q - 1) * (den : Int) = 2 * (den * q) - den := by
      rw [Int.sub_mul, Int.mul_assoc, Int.mul_comm q]; omega
    have e2 : (2 * q + 1) * (den : Int) = 2 * (den * q) + den := by
      rw [Int.add_mul, Int.mul_assoc, Int.mul_comm q]; omega
    rw [e1, e2]
    omega

/-- **C89**, what is done with negative numbers: they are always rounded down, however near the next number is. -/
theorem C89_negative (num : Int) (den : Nat) (hd : 0 < den) (h0 : num < 0) :
    utilRound num den * den ≤ num ∧ num < (utilRound num den + 1) * den := by
  have hd' : (0 : Int) < den := by omega
  have hm : num.tmod den ≤ 0 := by
    have := Int.tmod_nonneg (a := -num) (b := den) (by omega)
    rw [Int.neg_tmod] at this
    omega
  unfold utilRound
  rw [if_neg (by omega)]
  exact ⟨Int.ediv_mul_le num (Int.ne_of_gt hd'), Int.lt_ediv_add_one_mul_self num hd'⟩

/-- **C89**, whole numbers of units, also negative ones, are left as they are. -/
theorem C89_whole (k : Int) (den : Nat) (hd : 0 < den) : utilRound (k * den) den = k := by
  have hd' : (0 : Int) < den := by omega
  unfold utilRound
  rw [Int.mul_tmod_left, if_neg (by omega)]
  exact Int.mul_ediv_cancel k (Int.ne_of_gt hd')

/-- **C89 is false of the code**: -0.25 is rounded to -1, though 0 is nearer. -/
theorem C89_false : ¬ (∀ (num : Int) (den : Nat), 0 < den →
    (2 * utilRound num den - 1) * den ≤ 2 * num ∧ 2 * num ≤ (2 * utilRound num den + 1) * den) := by
  intro h
  have := h (-1) 4 (by decide)
  revert this
  decide

-- 2.5, 2.25 and 2.75; -2.25 and -3
example : utilRound 5 2 = 3 ∧ utilRound 9 4 = 2 ∧ utilRound 11 4 = 3 ∧ utilRound (-9) 4 = -3 ∧ utilRound (-12) 4 = -3 := by decide

end Verif
