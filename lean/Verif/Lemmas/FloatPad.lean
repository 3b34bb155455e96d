import Verif.Lemmas.FloatNear
import Verif.Spec.Padded
import Verif.Props.C50
import Verif.Model.Printer

/-!
# Lemmas: a float written with more digits than necessary
-/

namespace Verif
namespace FloatFmt

/-- The neighbours of a float that is not a power of two are equally far away. -/
theorem units_symmetric (f : FloatFmt) (b : Nat) (hb : 0 < b) (h : b % 2 ^ f.mant ≠ 0 ∨ b / 2 ^ f.mant ≤ 1) : f.units (b + 1) + f.units (b - 1) = 2 * f.units b := by
  have hp : 2 ^ (f.mant + 1) = 2 * 2 ^ f.mant := by rw [Nat.pow_succ]; omega
  have hm := Nat.two_pow_pos f.mant
  by_cases he : b < 2 ^ (f.mant + 1)
  · rw [units_small f b he, units_small f (b - 1) (by omega)]
    have := units_at f 0 (b + 1) (.inl rfl) (by omega)
    rw [Nat.zero_mul, Nat.zero_add] at this
    rw [this]; omega
  · have hmod := Nat.mod_lt b hm
    have hd := Nat.div_add_mod b (2 ^ f.mant)
    have h2 : 2 ≤ b / 2 ^ f.mant := by rw [Nat.le_div_iff_mul_le hm]; omega
    have hr : b % 2 ^ f.mant ≠ 0 := by
      rcases h with h | h
      · exact h
      · exact absurd (Nat.le_trans h2 h) (by omega)
    obtain ⟨s, hs⟩ : ∃ s, b / 2 ^ f.mant = s + 1 := ⟨b / 2 ^ f.mant - 1, (Nat.sub_add_cancel (by exact Nat.le_trans (by omega) h2)).symm⟩
    have hb' : b = s * 2 ^ f.mant + (2 ^ f.mant + b % 2 ^ f.mant) := by
      rw [hs, Nat.mul_comm, Nat.add_mul, Nat.one_mul, Nat.add_assoc] at hd; exact hd.symm
    generalize b % 2 ^ f.mant = r at *
    have h1 := units_at f s (2 ^ f.mant + r) (.inr (by omega)) (by omega)
    have h2 := units_at f s (2 ^ f.mant + r + 1) (.inr (by omega)) (by omega)
    have h3 := units_at f s (2 ^ f.mant + r - 1) (.inr (by omega)) (by omega)
    rw [show s * 2 ^ f.mant + (2 ^ f.mant + r + 1) = b + 1 by omega] at h2
    rw [show s * 2 ^ f.mant + (2 ^ f.mant + r - 1) = b - 1 by omega] at h3
    rw [← hb'] at h1
    rw [h1, h2, h3, ← Nat.add_mul, ← Nat.mul_assoc]
    congr 1; omega

/-- A power of two: its value, and that of its neighbours. -/
theorem units_pow (f : FloatFmt) (s : Nat) :
    f.units ((s + 2) * 2 ^ f.mant) = 2 ^ (f.mant + s + 1) ∧ f.units ((s + 2) * 2 ^ f.mant + 1) = 2 ^ (f.mant + s + 1) + 2 ^ (s + 1) ∧
      f.units ((s + 2) * 2 ^ f.mant - 1) + 2 ^ s = 2 ^ (f.mant + s + 1) := by
  have hp : 2 ^ (f.mant + 1) = 2 * 2 ^ f.mant := by rw [Nat.pow_succ]; omega
  have hm := Nat.two_pow_pos f.mant
  have h1 := units_at f (s + 1) (2 ^ f.mant) (.inr (by omega)) (by omega)
  have h2 := units_at f (s + 1) (2 ^ f.mant + 1) (.inr (by omega)) (by omega)
  have h3 := units_at f s (2 ^ (f.mant + 1) - 1) (.inr (by omega)) (by omega)
  have e1 : (s + 2) * 2 ^ f.mant = (s + 1) * 2 ^ f.mant + 2 ^ f.mant := by rw [show s + 2 = s + 1 + 1 from rfl, Nat.add_mul (s + 1), Nat.one_mul]
  have e3 : (s + 2) * 2 ^ f.mant - 1 = s * 2 ^ f.mant + (2 ^ (f.mant + 1) - 1) := by
    rw [e1, Nat.add_mul, Nat.one_mul]; omega
  have e2 : (s + 2) * 2 ^ f.mant + 1 = (s + 1) * 2 ^ f.mant + (2 ^ f.mant + 1) := by omega
  have e4 : 2 ^ (f.mant + s + 1) = 2 ^ f.mant * 2 ^ (s + 1) := by rw [← Nat.pow_add, Nat.add_assoc]
  have e5 : 2 ^ (f.mant + s + 1) = 2 ^ (f.mant + 1) * 2 ^ s := by rw [← Nat.pow_add]; congr 1; omega
  refine ⟨by rw [e1, h1, e4], by rw [e2, h2, e4, Nat.add_mul, Nat.one_mul], ?_⟩
  rw [e3, h3, e5, Nat.sub_mul, Nat.one_mul]
  have : 2 ^ s ≤ 2 ^ (f.mant + 1) * 2 ^ s := Nat.le_mul_of_pos_left _ (Nat.two_pow_pos _)
  omega

/-- How a power of two `2^(mant + s + 1)` units, written with `p` digits after the point, can be read as another float although a decimal with `p` digits is read as it: the
greater of the two decimals around it is read as it, the smaller is not, and the smaller is nearer. -/
def fails (f : FloatFmt) (s p : Nat) : Prop :=
  let r := 2 ^ (f.mant + s + 1) * 10 ^ p % 2 ^ f.scale
  2 ^ s * 10 ^ p < 2 * r ∧ 2 * r ≤ 2 ^ f.scale ∧ 2 * (2 ^ f.scale - r) ≤ 2 ^ (s + 1) * 10 ^ p

instance (f : FloatFmt) (s p : Nat) : Decidable (f.fails s p) := by unfold fails; infer_instance

/-- A float that is read from some decimal with `p` digits after the point is read from the nearest one, unless it is a power of two that `fails`. -/
theorem nearestNat_back (f : FloatFmt) (b p x : Nat) (hx : f.nearest (x * 2 ^ f.scale) (10 ^ p) = b)
    (h : b % 2 ^ f.mant ≠ 0 ∨ b / 2 ^ f.mant ≤ 1 ∨ ¬ f.fails (b / 2 ^ f.mant - 2) p) (hmant : 1 ≤ f.mant) :
    f.nearest (nearestNat (f.units b * 10 ^ p) (2 ^ f.scale) * 2 ^ f.scale) (10 ^ p) = b := by
  have hP : 0 < 10 ^ p := Nat.pow_pos (by omega)
  have hD : 0 < 2 ^ f.scale := Nat.two_pow_pos _
  have hdm := Nat.div_add_mod (f.units b * 10 ^ p) (2 ^ f.scale)
  have hmod := Nat.mod_lt (f.units b * 10 ^ p) hD
  rw [Nat.mul_comm] at hdm
  by_cases hr : f.units b * 10 ^ p % 2 ^ f.scale = 0
  · unfold nearestNat
    rw [hr, if_pos (.inl (by omega))]
    rw [hr, Nat.add_zero] at hdm
    rw [hdm]; exact nearest_units f b _ hP
  -- one of the two decimals around the float is read as it
  have hacc : f.nearest (f.units b * 10 ^ p / 2 ^ f.scale * 2 ^ f.scale) (10 ^ p) = b ∨
      f.nearest ((f.units b * 10 ^ p / 2 ^ f.scale + 1) * 2 ^ f.scale) (10 ^ p) = b := by
    by_cases hle : x ≤ f.units b * 10 ^ p / 2 ^ f.scale
    · left
      refine nearest_between_self f _ _ _ b hP hx (.inl ⟨Nat.mul_le_mul_right _ hle, by omega⟩)
    · right
      refine nearest_between_self f _ _ _ b hP hx (.inr ⟨?_, Nat.mul_le_mul_right _ (by omega)⟩)
      rw [Nat.add_mul, Nat.one_mul]; omega
  by_cases hsym : b % 2 ^ f.mant ≠ 0 ∨ b / 2 ^ f.mant ≤ 1
  · have hb : 0 < b := by
      rcases Nat.eq_zero_or_pos b with rfl | hb
      · exfalso
        apply hr
        rw [units_small f 0 (Nat.two_pow_pos _)]; simp
      · exact hb
    have hu := units_symmetric f b hb hsym
    have hu' : f.units (b + 1) * 10 ^ p + f.units (b - 1) * 10 ^ p = 2 * (f.units b * 10 ^ p) := by
      rw [← Nat.add_mul, hu, Nat.mul_assoc]
    simp only [nearest_eq_iff f _ _ b hP, Nat.add_mul, Nat.one_mul] at hacc ⊢
    unfold nearestNat
    generalize f.units b * 10 ^ p / 2 ^ f.scale = q at *
    generalize f.units b * 10 ^ p % 2 ^ f.scale = r at *
    generalize f.units b * 10 ^ p = N at *
    generalize f.units (b + 1) * 10 ^ p = N1 at *
    generalize f.units (b - 1) * 10 ^ p = N0 at *
    by_cases hc : 2 * r < 2 ^ f.scale ∨ (2 * r = 2 ^ f.scale ∧ q % 2 = 0)
    · rw [if_pos hc]; omega
    · rw [if_neg hc, Nat.add_mul, Nat.one_mul]; omega
  · have hsym' : b % 2 ^ f.mant = 0 ∧ 2 ≤ b / 2 ^ f.mant := by
      constructor
      · exact Decidable.not_not.1 fun hh => hsym (.inl hh)
      · exact Decidable.not_not.1 fun hh => hsym (.inr (Nat.le_of_lt_succ (Nat.lt_of_not_le hh)))
    obtain ⟨s, hs⟩ : ∃ s, b / 2 ^ f.mant = s + 2 := ⟨b / 2 ^ f.mant - 2, (Nat.sub_add_cancel hsym'.2).symm⟩
    have hb : b = (s + 2) * 2 ^ f.mant := by
      have := Nat.div_add_mod b (2 ^ f.mant)
      rw [hsym'.1, hs, Nat.add_zero, Nat.mul_comm] at this
      exact this.symm
    have hf : ¬ f.fails s p := by
      rcases h with h | h | h
      · exact absurd hsym'.1 h
      · exact absurd (Nat.le_trans hsym'.2 h) (by omega)
      · rwa [hs, Nat.add_sub_cancel] at h
    have heven : b % 2 = 0 := by
      rw [hb]
      obtain ⟨k, hk⟩ : ∃ k, f.mant = k + 1 := ⟨f.mant - 1, by omega⟩
      rw [hk, Nat.pow_succ, ← Nat.mul_assoc, Nat.mul_mod_left]
    obtain ⟨u1, u2, u3⟩ := units_pow f s
    rw [← hb] at u1 u2 u3
    have v2 : f.units (b + 1) * 10 ^ p = f.units b * 10 ^ p + 2 * (2 ^ s * 10 ^ p) := by
      rw [u2, u1, Nat.add_mul, Nat.pow_succ 2 s, Nat.mul_comm (2 ^ s) 2, Nat.mul_assoc]
    have v3 : f.units (b - 1) * 10 ^ p + 2 ^ s * 10 ^ p = f.units b * 10 ^ p := by
      rw [← Nat.add_mul, u3, u1]
    have hf' : ¬ (2 ^ s * 10 ^ p < 2 * (f.units b * 10 ^ p % 2 ^ f.scale) ∧ 2 * (f.units b * 10 ^ p % 2 ^ f.scale) ≤ 2 ^ f.scale ∧
        2 * (2 ^ f.scale - f.units b * 10 ^ p % 2 ^ f.scale) ≤ 2 * (2 ^ s * 10 ^ p)) := by
      rw [u1]
      unfold fails at hf
      rw [Nat.pow_succ 2 s, Nat.mul_comm (2 ^ s) 2, Nat.mul_assoc] at hf
      exact hf
    simp only [nearest_eq_iff f _ _ b hP, Nat.add_mul, Nat.one_mul] at hacc ⊢
    unfold nearestNat
    clear hf u1 u2 u3 hx h hb hs hsym hsym'
    generalize f.units b * 10 ^ p / 2 ^ f.scale = q at *
    generalize f.units b * 10 ^ p % 2 ^ f.scale = r at *
    generalize f.units b * 10 ^ p = N at *
    generalize f.units (b + 1) * 10 ^ p = N1 at *
    generalize f.units (b - 1) * 10 ^ p = N0 at *
    generalize 2 ^ s * 10 ^ p = g at *
    by_cases hc : 2 * r < 2 ^ f.scale ∨ (2 * r = 2 ^ f.scale ∧ q % 2 = 0)
    · rw [if_pos hc]; omega
    · rw [if_neg hc, Nat.add_mul, Nat.one_mul]; omega

/-- A power of two can only fail at one number of digits. -/
theorem fails_log (f : FloatFmt) (s p : Nat) (h : f.fails s p) : s + 1 + (10 ^ p).log2 = f.scale := by
  have hP : 10 ^ p ≠ 0 := Nat.pos_iff_ne_zero.1 (Nat.pow_pos (by omega))
  unfold fails at h
  simp only at h
  generalize 2 ^ (f.mant + s + 1) * 10 ^ p % 2 ^ f.scale = r at h
  have h1 : 2 ^ s * 10 ^ p < 2 ^ f.scale := by omega
  have h2 : 2 ^ f.scale ≤ 2 ^ (s + 1) * 10 ^ p := by omega
  have l1 := Nat.log2_self_le hP
  have l2 := @Nat.lt_log2_self (10 ^ p)
  have a1 : 2 ^ (s + (10 ^ p).log2) < 2 ^ f.scale := by
    rw [Nat.pow_add]
    exact Nat.lt_of_le_of_lt (Nat.mul_le_mul_left _ l1) h1
  have a2 : 2 ^ f.scale < 2 ^ (s + 1 + ((10 ^ p).log2 + 1)) := by
    rw [Nat.pow_add]
    exact Nat.lt_of_le_of_lt h2 (Nat.mul_lt_mul_of_pos_left l2 (Nat.two_pow_pos _))
  have b1 := (Nat.pow_lt_pow_iff_right (a := 2) (by omega)).1 a1
  have b2 := (Nat.pow_lt_pow_iff_right (a := 2) (by omega)).1 a2
  omega

theorem fails64 (s p : Nat) (h : f64.fails s p) : ∃ n ∈ badPowers64, s + 2 = 1023 - n := by
  have hl := fails_log f64 s p h
  have hp : p < 324 := by
    refine Decidable.byContradiction fun hp => ?_
    have h1 : (10 : Nat) ^ 324 ≤ 10 ^ p := Nat.pow_le_pow_right (by omega) (by omega)
    have h2 : (1076 : Nat) ≤ (10 ^ p).log2 :=
      (Nat.le_log2 (Nat.pos_iff_ne_zero.1 (Nat.pow_pos (by omega)))).2 (Nat.le_trans (by decide +kernel) h1)
    have : f64.scale = 1074 := rfl
    omega
  have key : ∀ p : Fin 324, f64.fails (1073 - (10 ^ p.val).log2) p.val → badPowers64.any (fun n => decide (1073 - (10 ^ p.val).log2 + 2 = 1023 - n)) = true := by
    decide +kernel
  have hs : s = 1073 - (10 ^ p).log2 := by
    have : f64.scale = 1074 := rfl
    omega
  rw [hs] at h ⊢
  have := key ⟨p, hp⟩ h
  simpa using this

theorem fails32 (s p : Nat) (h : f32.fails s p) : s + 2 = 127 - 96 := by
  have hl := fails_log f32 s p h
  have hp : p < 46 := by
    refine Decidable.byContradiction fun hp => ?_
    have h1 : (10 : Nat) ^ 46 ≤ 10 ^ p := Nat.pow_le_pow_right (by omega) (by omega)
    have h2 : (149 : Nat) ≤ (10 ^ p).log2 :=
      (Nat.le_log2 (Nat.pos_iff_ne_zero.1 (Nat.pow_pos (by omega)))).2 (Nat.le_trans (by decide +kernel) h1)
    have : f32.scale = 149 := rfl
    omega
  have key : ∀ p : Fin 46, f32.fails (148 - (10 ^ p.val).log2) p.val → 148 - (10 ^ p.val).log2 + 2 = 127 - 96 := by
    decide +kernel
  have hs : s = 148 - (10 ^ p).log2 := by
    have : f32.scale = 149 := rfl
    omega
  rw [hs] at h ⊢
  exact key ⟨p, hp⟩ h

/-! ## The text -/

theorem lastDigits_zeros (k p c : Nat) (f' : GoStr) (h : lastDigits (p + k) c = f' ++ List.replicate k 48) : f' = lastDigits p (c / 10 ^ k) ∧ c % 10 ^ k = 0 := by
  induction k generalizing c with
  | zero => simpa [Nat.mod_one] using h.symm
  | succ k ih =>
    rw [← Nat.add_assoc, lastDigits, List.replicate_succ', ← List.append_assoc] at h
    have h2 := List.append_inj' h rfl
    obtain ⟨i1, i2⟩ := ih (c / 10) h2.1
    have h0 : c % 10 = 0 := by
      have hd := (digit_value (c % 10) (Nat.mod_lt _ (by omega))).1
      have : UInt8.ofNat (48 + c % 10) = 48 := by simpa using h2.2
      rw [this] at hd
      exact hd.symm
    constructor
    · rw [i1, Nat.div_div_eq_div_mul, Nat.pow_succ, Nat.mul_comm (10 ^ k) 10]
    · rw [Nat.pow_succ, Nat.mul_comm, Nat.mod_mul, h0, i2]

theorem decimalParts_decimal (neg : Bool) (c k : Nat) : (decimalParts ((if neg then [45] else []) ++ decimal c k)).2.2 = k := by
  obtain ⟨_, h2, _⟩ := fmtNat_digits (c / 10 ^ k)
  obtain ⟨_, _, g3⟩ := lastDigits_digits k c
  have hno : ∀ x ∈ (if neg then [45] else []) ++ fmtNat (c / 10 ^ k), decide (x = (46 : UInt8)) = false := by
    intro x hx
    rcases List.mem_append.1 hx with hx | hx
    · cases neg <;> simp at hx
      subst hx; decide
    · have := h2 x hx
      simp only [decide_eq_false_iff_not]
      rintro rfl
      exact absurd this (by decide)
  unfold decimal
  rw [← List.append_assoc]
  generalize (if neg then [45] else []) ++ fmtNat (c / 10 ^ k) = w at *
  unfold decimalParts
  have hn : w.findIdx? (fun x => decide (x = (46 : UInt8))) = none := by
    rw [List.findIdx?_eq_none_iff]; exact hno
  by_cases hk : k = 0
  · subst hk
    simp [hn]
  · rw [if_neg hk, List.findIdx?_append, hn, List.findIdx?_cons]
    simp [g3]

/-- `padTrailingZeros` of a decimal: a decimal of the same value, and spaces. -/
theorem padTrailingZeros_decimal (neg : Bool) (c p : Nat) :
    ∃ c' p' m, padTrailingZeros ((if neg then [45] else []) ++ decimal c p) = ((if neg then [45] else []) ++ decimal c' p') ++ List.replicate m 32 ∧ c' * 10 ^ p = c * 10 ^ p' := by
  obtain ⟨_, h2, _⟩ := fmtNat_digits (c / 10 ^ p)
  obtain ⟨_, g2, g3⟩ := lastDigits_digits p c
  by_cases hp : p = 0
  · subst hp
    refine ⟨c, 0, 0, ?_, rfl⟩
    have : ((if neg then [45] else []) ++ decimal c 0).contains 46 = false := by
      rw [Bool.eq_false_iff]
      intro hc
      rw [List.contains_iff_mem] at hc
      unfold decimal at hc
      simp only [List.mem_append] at hc
      rcases hc with hc | hc | hc
      · cases neg <;> simp at hc
      · exact absurd (h2 _ hc) (by decide)
      · simp at hc
    unfold padTrailingZeros
    rw [this, padLoop_noPoint]; simp
  · unfold decimal
    rw [if_neg hp, ← List.append_assoc]
    obtain ⟨f', k, ⟨hs1, _, hs3, _⟩, hpad, _⟩ := loops_spec ((if neg then [45] else []) ++ fmtNat (c / 10 ^ p)) (lastDigits p c) 0 (fun h => absurd (g2 _ h) (by decide))
    have hne : lastDigits p c ≠ [] := by
      intro e
      rw [e] at g3
      exact hp g3.symm
    have hlen : p = f'.length + k := by
      have := congrArg List.length hs1
      simpa [g3] using this
    have hf' : f'.length ≠ 0 := fun e => hs3 hne (List.eq_nil_of_length_eq_zero e)
    obtain ⟨z1, z2⟩ := lastDigits_zeros k f'.length c f' (by rw [← hlen]; exact hs1)
    have hdiv : c / 10 ^ k * 10 ^ k = c := Nat.div_mul_cancel (Nat.dvd_of_mod_eq_zero z2)
    refine ⟨c / 10 ^ k, f'.length, k, ?_, ?_⟩
    · unfold padTrailingZeros
      have hcon : ((if neg then [45] else []) ++ fmtNat (c / 10 ^ p) ++ 46 :: lastDigits p c).contains 46 = true := by simp
      rw [hcon]
      have hl : ((if neg then [45] else []) ++ fmtNat (c / 10 ^ p) ++ 46 :: lastDigits p c).length - 1 =
          ((if neg then [45] else []) ++ fmtNat (c / 10 ^ p)).length + (lastDigits p c).length := by
        simp only [List.length_append, List.length_cons]; omega
      rw [hl]
      simp only [List.replicate_zero, List.append_nil, Nat.add_zero] at hpad
      rw [hpad, if_neg hf', ← z1, Nat.div_div_eq_div_mul, ← Nat.pow_add, Nat.add_comm k, ← hlen]
      simp
    · rw [hlen, Nat.pow_add, Nat.mul_left_comm, hdiv, Nat.mul_comm]

/-- A float, written with at least as many digits as necessary and padded, is a decimal that is read back as the float, and spaces. -/
theorem padded_back (f : FloatFmt) (hmant : 1 ≤ f.mant) (neg : Bool) (b p : Nat) (hb : b < f.inf)
    (hp : (decimalParts (f.format f.formatShortest neg b)).2.2 ≤ p)
    (h : b % 2 ^ f.mant ≠ 0 ∨ b / 2 ^ f.mant ≤ 1 ∨ ¬ f.fails (b / 2 ^ f.mant - 2) p) :
    ∃ c k m, padTrailingZeros (f.format (fun b => f.formatPrec b p) neg b) = ((if neg then [45] else []) ++ decimal c k) ++ List.replicate m 32 ∧
      f.parse ((if neg then [45] else []) ++ decimal c k) = some (neg, b) := by
  obtain ⟨c, k, h1, h2⟩ := formatShortest_decimal f b
  unfold format at hp ⊢
  rw [if_neg (by omega), if_neg (by omega)] at hp ⊢
  rw [h1, decimalParts_decimal] at hp
  have hP : ∀ p, 0 < 10 ^ p := fun p => Nat.pow_pos (by omega)
  have hx : f.nearest (c * 10 ^ (p - k) * 2 ^ f.scale) (10 ^ p) = b := by
    rw [← h2]
    refine nearest_congr f (hP _) (hP _) ?_
    rw [show p = (p - k) + k by omega, Nat.pow_add, Nat.add_sub_cancel]
    simp only [Nat.mul_comm, Nat.mul_left_comm, Nat.mul_assoc]
  have hback := nearestNat_back f b p _ hx h hmant
  obtain ⟨c', p', m, e1, e2⟩ := padTrailingZeros_decimal neg (nearestNat (f.units b * 10 ^ p) (2 ^ f.scale)) p
  refine ⟨c', p', m, e1, ?_⟩
  have he : f.nearest (c' * 2 ^ f.scale) (10 ^ p') = b := by
    rw [← hback]
    refine nearest_congr f (hP _) (hP _) ?_
    rw [Nat.mul_right_comm, e2, Nat.mul_right_comm]
  rw [parse_decimal f neg c' p' (by rw [he]; exact hb), he]

end FloatFmt
end Verif
