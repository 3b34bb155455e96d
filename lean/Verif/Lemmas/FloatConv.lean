import Verif.Go.FloatConv

/-!
# Lemmas: conversion of floats
-/

namespace Verif
namespace FloatFmt

/-! ## Rounding -/

theorem shift_units (f : FloatFmt) (r e : Nat) (hr : r < 2 ^ f.mant) : f.shift ((r + 2 ^ f.mant) * 2 ^ e) = e := by
  unfold shift
  have h2 : 2 ^ (f.mant + 1) = 2 * 2 ^ f.mant := by rw [Nat.pow_succ]; omega
  cases e with
  | zero => rw [if_pos (by simp; omega)]
  | succ e =>
    have hp : 0 < 2 ^ e := Nat.two_pow_pos e
    have h3 : 2 ^ (e + 1) = 2 * 2 ^ e := by rw [Nat.pow_succ]; omega
    have hge : 2 ^ (f.mant + 1) ≤ (r + 2 ^ f.mant) * 2 ^ (e + 1) := by
      rw [h2, h3]
      have : 2 ^ f.mant * (2 * 1) ≤ (r + 2 ^ f.mant) * (2 * 2 ^ e) := Nat.mul_le_mul (by omega) (by omega)
      omega
    rw [if_neg (by omega)]
    have hl : ((r + 2 ^ f.mant) * 2 ^ (e + 1)).log2 = f.mant + (e + 1) := by
      rw [Nat.log2_eq_iff (by have := Nat.two_pow_pos (f.mant + 1); omega)]
      constructor
      · rw [Nat.pow_add]
        exact Nat.mul_le_mul (by omega) (Nat.le_refl _)
      · rw [show f.mant + (e + 1) + 1 = (f.mant + 1) + (e + 1) by omega, Nat.pow_add 2 (f.mant + 1) (e + 1)]
        exact Nat.mul_lt_mul_of_pos_right (by omega) (Nat.two_pow_pos _)
    omega

/-- A float is the nearest float to its own value. -/
theorem nearest_units (f : FloatFmt) (b d : Nat) (hd : 0 < d) : f.nearest (f.units b * d) d = b := by
  have hm : 0 < 2 ^ f.mant := Nat.two_pow_pos _
  have hmod := Nat.mod_lt b hm
  have hb := Nat.div_add_mod b (2 ^ f.mant)
  have key : ∀ s m, f.shift (f.units b) = s → f.units b / 2 ^ s = m → m * 2 ^ s = f.units b → s * 2 ^ f.mant + m = b → f.nearest (f.units b * d) d = b := by
    intro s m h1 h2 h3 h4
    unfold nearest
    simp only [Nat.mul_div_cancel _ hd, h1, h2, h3, h4, Nat.sub_self]
    rw [if_pos (by simpa using Nat.mul_pos (Nat.two_pow_pos s) hd)]
  by_cases h0 : b / 2 ^ f.mant = 0
  · have hu : f.units b = b := by
      unfold units
      rw [if_pos h0]
      rw [h0] at hb
      simpa using hb
    refine key 0 b ?_ ?_ ?_ ?_
    · rw [hu]
      unfold shift
      rw [if_pos]
      have : b < 2 ^ f.mant := by
        rw [h0] at hb
        omega
      rw [Nat.pow_succ]
      omega
    · simp [hu]
    · simp [hu]
    · simp
  · obtain ⟨e, he⟩ : ∃ e, b / 2 ^ f.mant = e + 1 := ⟨_, (Nat.succ_pred h0).symm⟩
    have hu : f.units b = (b % 2 ^ f.mant + 2 ^ f.mant) * 2 ^ e := by
      unfold units
      rw [if_neg h0, he]
      simp
    refine key e (b % 2 ^ f.mant + 2 ^ f.mant) ?_ ?_ hu.symm ?_
    · rw [hu]; exact shift_units f _ _ hmod
    · rw [hu]; exact Nat.mul_div_cancel _ (Nat.two_pow_pos e)
    · rw [he] at hb
      rw [Nat.mul_succ, Nat.mul_comm] at hb
      omega

theorem nearest_mul (f : FloatFmt) (n d c : Nat) (hc : 0 < c) : f.nearest (n * c) (d * c) = f.nearest n d := by
  unfold nearest
  simp only [Nat.mul_div_mul_right n d hc]
  generalize f.shift (n / d) = s
  generalize n / d / 2 ^ s = m
  have h1 : n * c - m * 2 ^ s * (d * c) = (n - m * 2 ^ s * d) * c := by
    rw [Nat.sub_mul, Nat.mul_assoc (m * 2 ^ s) d c]
  have h2 : 2 ^ s * (d * c) = 2 ^ s * d * c := by rw [Nat.mul_assoc]
  have h3 : 2 * ((n - m * 2 ^ s * d) * c) = 2 * (n - m * 2 ^ s * d) * c := (Nat.mul_assoc _ _ _).symm
  rw [h1, h2, h3]
  simp only [Nat.mul_lt_mul_right hc]

/-- The nearest float depends on the value only, not on the fraction that represents it. -/
theorem nearest_congr (f : FloatFmt) {n d n' d' : Nat} (hd : 0 < d) (hd' : 0 < d') (h : n * d' = n' * d) : f.nearest n d = f.nearest n' d' := by
  rw [← nearest_mul f n d d' hd', ← nearest_mul f n' d' d hd, h, Nat.mul_comm d d']

/-! ## Digits -/

theorem digit_value : ∀ d, d < 10 → (UInt8.ofNat (48 + d)).toNat - 48 = d ∧ isDigit (UInt8.ofNat (48 + d)) = true := by
  intro d hd
  have : ∀ d : Fin 10, (UInt8.ofNat (48 + d.val)).toNat - 48 = d.val ∧ isDigit (UInt8.ofNat (48 + d.val)) = true := by decide
  exact this ⟨d, hd⟩

theorem decValue_snoc (s : GoStr) (c : UInt8) : decValue (s ++ [c]) = 10 * decValue s + (c.toNat - 48) := by
  simp [decValue, List.foldl_append]

theorem decValue_append (s t : GoStr) : decValue (s ++ t) = decValue s * 10 ^ t.length + decValue t := by
  have h : ∀ (t : GoStr) v, t.foldl (fun v c => 10 * v + (c.toNat - 48)) v = v * 10 ^ t.length + decValue t := by
    intro t
    induction t with
    | nil => simp [decValue]
    | cons c t ih =>
      intro v
      have e : decValue (c :: t) = (10 * 0 + (c.toNat - 48)) * 10 ^ t.length + decValue t := ih _
      rw [List.foldl_cons, ih, e, List.length_cons, Nat.pow_succ]
      grind
  simp only [decValue, List.foldl_append]
  exact h t _

theorem fmtNat_digits (n : Nat) : decValue (fmtNat n) = n ∧ (∀ c ∈ fmtNat n, isDigit c = true) ∧ fmtNat n ≠ [] := by
  fun_induction fmtNat n with
  | case1 n h =>
    refine ⟨?_, ?_, by simp⟩
    · simpa [decValue] using (digit_value n h).1
    · intro c hc
      simp only [List.mem_singleton] at hc
      subst hc
      exact (digit_value n h).2
  | case2 n h ih =>
    have hd := digit_value (n % 10) (Nat.mod_lt _ (by omega))
    refine ⟨?_, ?_, by simp⟩
    · rw [decValue_snoc, ih.1, hd.1]
      omega
    · intro c hc
      rcases List.mem_append.1 hc with hc | hc
      · exact ih.2.1 c hc
      · simp only [List.mem_singleton] at hc
        subst hc
        exact hd.2

theorem lastDigits_digits (k c : Nat) : decValue (lastDigits k c) = c % 10 ^ k ∧ (∀ x ∈ lastDigits k c, isDigit x = true) ∧ (lastDigits k c).length = k := by
  induction k generalizing c with
  | zero => simp [lastDigits, decValue, Nat.mod_one]
  | succ k ih =>
    obtain ⟨h1, h2, h3⟩ := ih (c / 10)
    have hd := digit_value (c % 10) (Nat.mod_lt _ (by omega))
    refine ⟨?_, ?_, by simp [lastDigits, h3]⟩
    · rw [lastDigits, decValue_snoc, h1, hd.1, Nat.pow_succ, Nat.mul_comm (10 ^ k) 10, Nat.mod_mul]
      omega
    · intro x hx
      rcases List.mem_append.1 hx with hx | hx
      · exact h2 x hx
      · simp only [List.mem_singleton] at hx
        subst hx
        exact hd.2

theorem span_digits (ds rest : GoStr) (hd : ∀ c ∈ ds, isDigit c = true) (hr : ∀ c cs, rest = c :: cs → isDigit c = false) :
    (ds ++ rest).takeWhile isDigit = ds ∧ (ds ++ rest).dropWhile isDigit = rest := by
  rw [List.takeWhile_append_of_pos hd, List.dropWhile_append_of_pos hd]
  cases rest with
  | nil => simp
  | cons c cs => simp [hr c cs rfl]

theorem readDecimal_decimal (c k : Nat) : readDecimal (decimal c k) = some (c, -(k : Int)) := by
  obtain ⟨h1, h2, h3⟩ := fmtNat_digits (c / 10 ^ k)
  by_cases hk : k = 0
  · subst hk
    have hs := span_digits (fmtNat (c / 10 ^ 0)) [] h2 (by simp)
    unfold decimal readDecimal
    rw [if_pos rfl]
    simp only [hs.1, hs.2, h3, if_false, readExponent, Option.map_some, h1]
    simp
  · obtain ⟨g1, g2, g3⟩ := lastDigits_digits k c
    have hs := span_digits (fmtNat (c / 10 ^ k)) (46 :: lastDigits k c) h2 (fun x xs e => by
      rw [List.cons.injEq] at e; rw [← e.1]; decide)
    have ht := span_digits (lastDigits k c) [] g2 (by simp)
    rw [List.append_nil] at ht
    unfold decimal readDecimal
    rw [if_neg hk]
    simp only [hs.1, hs.2, ht.1, ht.2, List.append_eq_nil_iff, h3, false_and, if_false, readExponent, Option.map_some, decValue_append, h1, g1, g3]
    rw [Nat.mul_comm, Nat.div_add_mod]
    simp

theorem ofDecimal_decimal (f : FloatFmt) (c k : Nat) :
    f.ofDecimal c (-(k : Int)) = if f.nearest (c * 2 ^ f.scale) (10 ^ k) < f.inf then some (f.nearest (c * 2 ^ f.scale) (10 ^ k)) else none := by
  unfold ofDecimal
  by_cases hk : k = 0
  · subst hk
    simp
  · have h : ¬ (0 : Int) ≤ -(k : Int) := by omega
    simp only [if_neg h, Int.neg_neg, Int.toNat_natCast]

/-- A decimal is read as the float nearest to it. -/
theorem parse_decimal (f : FloatFmt) (neg : Bool) (c k : Nat) (hb : f.nearest (c * 2 ^ f.scale) (10 ^ k) < f.inf) :
    f.parse ((if neg then [45] else []) ++ decimal c k) = some (neg, f.nearest (c * 2 ^ f.scale) (10 ^ k)) := by
  obtain ⟨d, ds, hd⟩ : ∃ d ds, decimal c k = d :: ds ∧ isDigit d = true := by
    unfold decimal
    obtain ⟨_, h2, h3⟩ := fmtNat_digits (c / 10 ^ k)
    match h : fmtNat (c / 10 ^ k), h3 with
    | d :: ds, _ => exact ⟨d, _, rfl, h2 d (by rw [h]; simp)⟩
  have hfacts : lowerByte d ≠ 105 ∧ lowerByte d ≠ 110 ∧ d ≠ 43 ∧ d ≠ 45 := by
    have hall : ∀ n : Fin 256, isDigit (UInt8.ofNat n.val) = true → lowerByte (UInt8.ofNat n.val) ≠ 105 ∧ lowerByte (UInt8.ofNat n.val) ≠ 110 ∧
        UInt8.ofNat n.val ≠ 43 ∧ UInt8.ofNat n.val ≠ 45 := by decide +kernel
    have := hall ⟨d.toNat, d.toNat_lt⟩
    simp only [UInt8.ofNat_toNat] at this
    exact this hd.2
  have hinf : ¬ ((decimal c k).map lowerByte = gs! "inf" ∨ (decimal c k).map lowerByte = gs! "infinity") := by
    rw [hd.1]
    simp only [List.map_cons]
    rintro (h | h)
    · exact hfacts.1 (List.cons.inj h).1
    · exact hfacts.1 (List.cons.inj h).1
  have hnan : (decimal c k).map lowerByte ≠ gs! "nan" := by
    rw [hd.1]
    simp only [List.map_cons]
    exact fun h => hfacts.2.1 (List.cons.inj h).1
  have hsplit : splitSign ((if neg then [45] else []) ++ decimal c k) = (neg, neg, decimal c k) := by
    cases neg with
    | true => rfl
    | false =>
      simp only [Bool.false_eq_true, if_false, List.nil_append]
      unfold splitSign
      rw [hd.1]
      split
      · next h => exact absurd (List.cons.inj h).1 hfacts.2.2.1
      · next h => exact absurd (List.cons.inj h).1 hfacts.2.2.2
      · rfl
  unfold parse
  simp only [hsplit]
  rw [if_neg hinf, if_neg (fun h => hnan h.1), readDecimal_decimal]
  simp only [ofDecimal_decimal, if_pos hb, Option.map_some]

/-! ## The shortest decimal -/

theorem tryDigits_accepts (f : FloatFmt) (b j c : Nat) (h : f.tryDigits b j = some c) : f.accepts b c j = true := by
  unfold tryDigits at h
  simp only at h
  grind

theorem shortest_accepts (f : FloatFmt) (b fuel j : Nat) (hj : j + fuel = f.maxDigits + f.scale) :
    f.accepts b (f.shortest b fuel j).1 (f.shortest b fuel j).2 = true := by
  induction fuel generalizing j with
  | zero =>
    have hj' : j = f.maxDigits + f.scale := by omega
    have h10 : (10 : Nat) ^ j = 2 ^ f.scale * 10 ^ f.maxDigits * 5 ^ f.scale := by
      rw [hj', Nat.pow_add, show (10 : Nat) ^ f.scale = 2 ^ f.scale * 5 ^ f.scale by rw [← Nat.mul_pow]]
      rw [Nat.mul_comm (2 ^ f.scale) (10 ^ f.maxDigits), Nat.mul_assoc]
    have hp : 0 < 2 ^ f.scale * 10 ^ f.maxDigits := Nat.mul_pos (Nat.two_pow_pos _) (Nat.pow_pos (by omega))
    have hc : f.units b * 10 ^ j / (2 ^ f.scale * 10 ^ f.maxDigits) = f.units b * 5 ^ f.scale := by
      rw [h10, Nat.mul_comm (2 ^ f.scale * 10 ^ f.maxDigits), ← Nat.mul_assoc, Nat.mul_div_cancel _ hp]
    simp only [shortest, accepts, hc, decide_eq_true_eq]
    rw [show f.units b * 5 ^ f.scale * 10 ^ f.maxDigits * 2 ^ f.scale = f.units b * 10 ^ j by rw [h10]; grind]
    exact nearest_units f b _ (Nat.pow_pos (by omega))
  | succ fuel ih =>
    unfold shortest
    cases h : f.tryDigits b j with
    | none => exact ih (j + 1) (by omega)
    | some c => exact tryDigits_accepts f b j c h

theorem dropZeros_value (c k : Nat) : (dropZeros c k).1 * 10 ^ k = c * 10 ^ (dropZeros c k).2 := by
  induction k generalizing c with
  | zero => simp [dropZeros]
  | succ k ih =>
    unfold dropZeros
    split
    · next h =>
      have := ih (c / 10)
      rw [Nat.pow_succ, ← Nat.mul_assoc, this, Nat.mul_assoc, Nat.mul_comm (10 ^ _) 10, ← Nat.mul_assoc, Nat.div_mul_cancel (Nat.dvd_of_mod_eq_zero h)]
    · rfl

/-- The text of a finite float is a decimal that is read as that float. -/
theorem formatShortest_decimal (f : FloatFmt) (b : Nat) :
    ∃ c k, f.formatShortest b = decimal c k ∧ f.nearest (c * 2 ^ f.scale) (10 ^ k) = b := by
  unfold formatShortest
  by_cases hb : b = 0
  · subst hb
    refine ⟨0, 0, by simp [decimal, fmtNat], ?_⟩
    have := nearest_units f 0 1 (by omega)
    simpa [units] using this
  · have hacc := shortest_accepts f b (f.maxDigits + f.scale) 0 (by omega)
    rw [if_neg hb]
    generalize f.shortest b (f.maxDigits + f.scale) 0 = cj at hacc ⊢
    obtain ⟨c, j⟩ := cj
    simp only [accepts, decide_eq_true_eq] at hacc
    simp only
    have hp : ∀ n, 0 < 10 ^ n := fun n => Nat.pow_pos (by omega)
    split
    · next hj =>
      refine ⟨c * 10 ^ (f.maxDigits - j), 0, by simp [decimal], ?_⟩
      rw [← hacc]
      refine nearest_congr f (hp _) (hp _) ?_
      rw [show f.maxDigits = (f.maxDigits - j) + j by omega, Nat.pow_add, show f.maxDigits - j + j - j = f.maxDigits - j by omega]
      grind
    · next hj =>
      refine ⟨_, _, rfl, ?_⟩
      rw [← hacc]
      refine nearest_congr f (hp _) (hp _) ?_
      have hv := dropZeros_value c (j - f.maxDigits)
      have h10 : (10 : Nat) ^ j = 10 ^ (j - f.maxDigits) * 10 ^ f.maxDigits := by rw [← Nat.pow_add]; congr 1; omega
      rw [h10]
      generalize (dropZeros c (j - f.maxDigits)).1 = c' at hv ⊢
      generalize (dropZeros c (j - f.maxDigits)).2 = k' at hv ⊢
      generalize (10 : Nat) ^ (j - f.maxDigits) = x at hv ⊢
      calc c' * 2 ^ f.scale * (x * 10 ^ f.maxDigits) = (c' * x) * (2 ^ f.scale * 10 ^ f.maxDigits) := by grind
        _ = c * 10 ^ f.maxDigits * 2 ^ f.scale * 10 ^ k' := by rw [hv]; grind

/-- A finite float is read back from its text. -/
theorem parse_formatShortest (f : FloatFmt) (neg : Bool) (b : Nat) (hb : b < f.inf) :
    f.parse (f.format f.formatShortest neg b) = some (neg, b) := by
  obtain ⟨c, k, h1, h2⟩ := formatShortest_decimal f b
  unfold format
  rw [if_neg (by omega), if_neg (by omega), h1, parse_decimal f neg c k (by omega), h2]

end FloatFmt
end Verif
