import Verif.Lemmas.FloatConv

/-!
# Lemmas: which numbers are read as a float

The float nearest to `n / d` units lies between two neighbouring floats `b` and `b + 1`, whose values are `units b` and `units (b + 1)`.
-/

namespace Verif
namespace FloatFmt

theorem units_small (f : FloatFmt) (m : Nat) (h : m < 2 ^ (f.mant + 1)) : f.units m = m := by
  have h2 : 2 ^ (f.mant + 1) = 2 * 2 ^ f.mant := by rw [Nat.pow_succ]; omega
  have hm := Nat.two_pow_pos f.mant
  unfold units
  by_cases h1 : m < 2 ^ f.mant
  · rw [if_pos (Nat.div_eq_of_lt h1), Nat.mod_eq_of_lt h1]
  · have hd : m / 2 ^ f.mant = 1 := by
      rw [Nat.div_eq_iff hm]; omega
    rw [if_neg (by omega), hd, Nat.mod_eq_sub_mod (by omega), Nat.mod_eq_of_lt (by omega)]
    simp; omega

/-- The floats with a given exponent, and the first one of the next. -/
theorem units_at (f : FloatFmt) (s m : Nat) (h1 : s = 0 ∨ 2 ^ f.mant ≤ m) (h2 : m ≤ 2 ^ (f.mant + 1)) : f.units (s * 2 ^ f.mant + m) = m * 2 ^ s := by
  have hp : 2 ^ (f.mant + 1) = 2 * 2 ^ f.mant := by rw [Nat.pow_succ]; omega
  have hm := Nat.two_pow_pos f.mant
  by_cases hlt : m < 2 ^ f.mant
  · have hs : s = 0 := by omega
    subst hs
    rw [Nat.zero_mul, Nat.zero_add, units_small f m (by omega)]; simp
  · by_cases he : m = 2 ^ (f.mant + 1)
    · subst he
      have hd : (s * 2 ^ f.mant + 2 ^ (f.mant + 1)) = (s + 2) * 2 ^ f.mant := by rw [hp, Nat.add_mul]
      unfold units
      rw [hd, Nat.mul_div_cancel _ hm, Nat.mul_mod_left, if_neg (by omega), hp, Nat.zero_add, show s + 2 - 1 = s + 1 by omega, Nat.pow_succ]
      rw [Nat.mul_comm 2, Nat.mul_assoc, Nat.mul_comm 2]
    · have hmlt : m < 2 ^ (f.mant + 1) := by omega
      have hd : s * 2 ^ f.mant + m = (m - 2 ^ f.mant) + (s + 1) * 2 ^ f.mant := by rw [Nat.add_mul]; omega
      unfold units
      rw [hd, Nat.add_mul_div_right _ _ hm, Nat.add_mul_mod_self_right, Nat.div_eq_of_lt (by omega), Nat.mod_eq_of_lt (by omega), if_neg (by omega)]
      rw [show m - 2 ^ f.mant + 2 ^ f.mant = m by omega, show 0 + (s + 1) - 1 = s by omega]

theorem units_step (f : FloatFmt) (b : Nat) : f.units b < f.units (b + 1) := by
  have hp : 2 ^ (f.mant + 1) = 2 * 2 ^ f.mant := by rw [Nat.pow_succ]; omega
  have hm := Nat.two_pow_pos f.mant
  have hmod := Nat.mod_lt b hm
  have hb := Nat.div_add_mod b (2 ^ f.mant)
  by_cases he : b / 2 ^ f.mant = 0
  · have hlt : b < 2 ^ f.mant := by
      rw [he, Nat.mul_zero, Nat.zero_add] at hb; rw [← hb]; exact hmod
    clear hb hmod he
    rw [units_small f b (by omega), units_small f (b + 1) (by omega)]; omega
  · obtain ⟨s, hs⟩ : ∃ s, b / 2 ^ f.mant = s + 1 := ⟨b / 2 ^ f.mant - 1, (Nat.sub_add_cancel (Nat.pos_of_ne_zero he)).symm⟩
    have hb' : b = s * 2 ^ f.mant + (2 ^ f.mant + b % 2 ^ f.mant) := by
      rw [hs, Nat.mul_comm, Nat.add_mul, Nat.one_mul, Nat.add_assoc] at hb; exact hb.symm
    have h1 := units_at f s (2 ^ f.mant + b % 2 ^ f.mant) (.inr (by omega)) (by omega)
    have h2 := units_at f s (2 ^ f.mant + b % 2 ^ f.mant + 1) (.inr (by omega)) (by omega)
    rw [← hb'] at h1
    rw [← Nat.add_assoc, ← hb'] at h2
    rw [h1, h2, Nat.add_mul _ 1]
    have := Nat.two_pow_pos s
    omega

theorem units_mono (f : FloatFmt) {a b : Nat} (h : a < b) : f.units a < f.units b := by
  induction h with
  | refl => exact units_step f a
  | step _ ih => exact Nat.lt_trans ih (units_step f _)

theorem units_lt (f : FloatFmt) {a b : Nat} (h : f.units a < f.units b) : a < b := by
  rcases Nat.lt_trichotomy a b with h' | rfl | h'
  · exact h'
  · omega
  · have := units_mono f h'; omega

theorem shift_spec (f : FloatFmt) (q : Nat) : (f.shift q = 0 ∨ 2 ^ f.mant ≤ q / 2 ^ f.shift q) ∧ q / 2 ^ f.shift q < 2 ^ (f.mant + 1) := by
  unfold shift
  split
  · next h => simpa using h
  · next h =>
    have hq : q ≠ 0 := by rintro rfl; exact h (Nat.two_pow_pos _)
    have h1 := Nat.log2_self_le hq
    have h2 := @Nat.lt_log2_self q
    have h3 : f.mant + 1 ≤ q.log2 := (Nat.le_log2 hq).2 (by omega)
    have hpos := Nat.two_pow_pos (q.log2 - f.mant)
    refine ⟨.inr ?_, ?_⟩
    · rw [Nat.le_div_iff_mul_le hpos, ← Nat.pow_add, show f.mant + (q.log2 - f.mant) = q.log2 by omega]; exact h1
    · rw [Nat.div_lt_iff_lt_mul hpos, ← Nat.pow_add, show f.mant + 1 + (q.log2 - f.mant) = q.log2 + 1 by omega]; exact h2

/-- The float nearest to `n / d` is one of the two floats on either side. -/
theorem nearest_between (f : FloatFmt) (n d : Nat) (hd : 0 < d) :
    ∃ b, f.units b * d ≤ n ∧ n < f.units (b + 1) * d ∧
      f.nearest n d = if 2 * n < (f.units b + f.units (b + 1)) * d then b else if (f.units b + f.units (b + 1)) * d < 2 * n then b + 1 else if b % 2 = 0 then b else b + 1 := by
  obtain ⟨h1, h2⟩ := shift_spec f (n / d)
  unfold nearest
  generalize f.shift (n / d) = s at *
  generalize hm : n / d / 2 ^ s = m at *
  have hpos := Nat.two_pow_pos s
  have u1 := units_at f s m h1 (by omega)
  have u2 := units_at f s (m + 1) (by omega) (by omega)
  rw [← Nat.add_assoc] at u2
  have l1 : m * 2 ^ s * d ≤ n := by
    have := Nat.div_mul_le_self (n / d) (2 ^ s)
    rw [hm] at this
    exact (Nat.le_div_iff_mul_le hd).1 this
  have l2 : n < (m + 1) * 2 ^ s * d := by
    rw [← Nat.div_lt_iff_lt_mul hd]
    rw [← Nat.div_lt_iff_lt_mul hpos, hm]; omega
  refine ⟨s * 2 ^ f.mant + m, by rw [u1]; exact l1, by rw [u2]; exact l2, ?_⟩
  have l3 : (f.units (s * 2 ^ f.mant + m) + f.units (s * 2 ^ f.mant + m + 1)) * d = 2 * (m * 2 ^ s * d) + 2 ^ s * d := by
    rw [u1, u2, Nat.add_mul, Nat.add_mul, Nat.one_mul, Nat.add_mul]; omega
  rw [l3]
  simp only [hm]
  have l4 : n < m * 2 ^ s * d + 2 ^ s * d := by
    rw [Nat.add_mul, Nat.one_mul, Nat.add_mul] at l2; exact l2
  clear l2 l3 u1 u2 hm h1 h2
  generalize m * 2 ^ s * d = x at *
  generalize 2 ^ s * d = y at *
  generalize s * 2 ^ f.mant + m = z at *
  have e1 : 2 * (n - x) < y ↔ 2 * n < 2 * x + y := by omega
  have e2 : y < 2 * (n - x) ↔ 2 * x + y < 2 * n := by omega
  simp only [e1, e2]

/-- A number is read as the float `b` if it is nearer to it than to its neighbours, or lies in the middle and `b` is even. -/
theorem nearest_eq_iff (f : FloatFmt) (n d b : Nat) (hd : 0 < d) :
    f.nearest n d = b ↔
      (f.units b * d ≤ n ∧ (2 * n < (f.units b + f.units (b + 1)) * d ∨ (2 * n = (f.units b + f.units (b + 1)) * d ∧ b % 2 = 0))) ∨
      (n < f.units b * d ∧ ((f.units b + f.units (b - 1)) * d < 2 * n ∨ ((f.units b + f.units (b - 1)) * d = 2 * n ∧ b % 2 = 0))) := by
  obtain ⟨b0, h1, h2, h3⟩ := nearest_between f n d hd
  have low : ∀ x, f.units x * d ≤ n → x ≤ b0 := by
    intro x hx
    have : f.units x * d < f.units (b0 + 1) * d := by omega
    have := units_lt f (Nat.lt_of_mul_lt_mul_right this)
    omega
  have high : ∀ x, n < f.units x * d → b0 < x := by
    intro x hx
    have : f.units b0 * d < f.units x * d := by omega
    exact units_lt f (Nat.lt_of_mul_lt_mul_right this)
  have step : ∀ x, f.units x * d < f.units (x + 1) * d := fun x => Nat.mul_lt_mul_of_pos_right (units_step f x) hd
  have hs0 := step b0
  constructor
  · intro h
    rw [h3] at h
    by_cases hb : b = b0
    · subst hb
      left
      refine ⟨h1, ?_⟩
      split at h
      · left; assumption
      · split at h
        · omega
        · split at h
          · right; constructor <;> omega
          · omega
    · have hb1 : b = b0 + 1 := by
        split at h
        · omega
        · split at h
          · omega
          · split at h <;> omega
      subst hb1
      right
      refine ⟨h2, ?_⟩
      rw [Nat.add_sub_cancel, Nat.add_comm (f.units (b0 + 1))]
      split at h
      · omega
      · split at h
        · left; assumption
        · split at h
          · omega
          · right; constructor <;> omega
  · rintro (⟨g1, g2⟩ | ⟨g1, g2⟩)
    · have hb : b = b0 := by
        have hle := low b g1
        have : n < f.units (b + 1) * d := by
          have := step b
          rw [Nat.add_mul] at g2
          omega
        have := high _ this
        omega
      subst hb
      rw [h3]
      rcases g2 with g2 | ⟨g2, g3⟩
      · rw [if_pos g2]
      · rw [if_neg (by omega), if_neg (by omega), if_pos g3]
    · have hb : b = b0 + 1 := by
        have hlt := high b g1
        have hle : f.units (b - 1) * d ≤ n := by
          have := step (b - 1)
          rw [Nat.sub_add_cancel (by omega)] at this
          rw [Nat.add_mul] at g2
          omega
        have := low _ hle
        omega
      subst hb
      rw [Nat.add_sub_cancel, Nat.add_comm (f.units (b0 + 1))] at g2
      rw [h3]
      rcases g2 with g2 | ⟨g2, g3⟩
      · rw [if_neg (by omega), if_pos g2]
      · rw [if_neg (by omega), if_neg (by omega), if_neg (by omega)]

/-- Numbers between a number that is read as `b` and the value of `b` are read as `b`. -/
theorem nearest_between_self (f : FloatFmt) (n n' d b : Nat) (hd : 0 < d) (h : f.nearest n d = b)
    (hb : (n ≤ n' ∧ n' ≤ f.units b * d) ∨ (f.units b * d ≤ n' ∧ n' ≤ n)) : f.nearest n' d = b := by
  have step : f.units b * d < f.units (b + 1) * d := Nat.mul_lt_mul_of_pos_right (units_step f b) hd
  rw [nearest_eq_iff f _ d b hd] at h ⊢
  rw [Nat.add_mul, Nat.add_mul] at h ⊢
  rcases hb with ⟨h1, h2⟩ | ⟨h1, h2⟩
  · by_cases he : n' = f.units b * d
    · left; omega
    · right
      refine ⟨by omega, ?_⟩
      rcases h with ⟨g1, g2⟩ | ⟨g1, g2⟩
      · omega
      · omega
  · left
    rcases h with ⟨g1, g2⟩ | ⟨g1, g2⟩
    · omega
    · omega

end FloatFmt
end Verif
