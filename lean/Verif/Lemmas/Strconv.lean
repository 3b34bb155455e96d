import Verif.Model.Literal
import Verif.Spec.Literal

/-!
# Lemmas on integer texts
-/

namespace Verif

theorem forall_uint8 {p : UInt8 → Prop} [DecidablePred p] (h : ∀ n : Fin 256, p (UInt8.ofNat n.val)) (c : UInt8) : p c := by
  have := h ⟨c.toNat, c.toNat_lt⟩
  simpa using this

theorem strconvDigit_lt {base : Nat} (hb : base ≤ 16) (c : UInt8) :
    (∃ d, strconvDigit c = some d ∧ d < base) ↔ digitValue c < base := by
  have h : ∀ c : UInt8, (strconvDigit c = some (digitValue c) ∧ digitValue c < 16) ∨
      (16 ≤ digitValue c ∧ ∀ d ∈ strconvDigit c, 16 ≤ d) := by
    intro c
    refine forall_uint8 (p := fun c => (strconvDigit c = some (digitValue c) ∧ digitValue c < 16) ∨
      (16 ≤ digitValue c ∧ ∀ d ∈ strconvDigit c, 16 ≤ d)) ?_ c
    decide +kernel
  rcases h c with ⟨h1, h2⟩ | ⟨h1, h2⟩
  · rw [h1]; simp
  · constructor
    · rintro ⟨d, hd, hlt⟩
      have := h2 d hd
      omega
    · intro h; omega

theorem strconvDigit_eq {c : UInt8} {d : Nat} (h : strconvDigit c = some d) (hd : d < 16) : d = digitValue c := by
  have : ∀ c : UInt8, ∀ d ∈ strconvDigit c, d < 16 → d = digitValue c := by
    intro c
    refine forall_uint8 (p := fun c => ∀ d ∈ strconvDigit c, d < 16 → d = digitValue c) ?_ c
    decide +kernel
  exact this c d h hd

/-- The number written by digits after a number `n`. -/
def valueFrom (base : Nat) (ds : GoStr) (n : Nat) : Nat := ds.foldl (fun v c => v * base + digitValue c) n

theorem le_valueFrom {base : Nat} (hb : 2 ≤ base) (ds : GoStr) (n : Nat) : n ≤ valueFrom base ds n := by
  induction ds generalizing n with
  | nil => exact Nat.le_refl _
  | cons c ds ih =>
    refine Nat.le_trans ?_ (ih (n * base + digitValue c))
    have : n * 1 ≤ n * base := Nat.mul_le_mul_left _ (by omega)
    omega

theorem parseUintLoop_spec {base maxVal : Nat} (hb : 2 ≤ base) (hb' : base ≤ 16) (hm : maxVal < two64) (s : GoStr) (n : Nat) (hn : n ≤ maxVal) :
    ((∀ c ∈ s, digitValue c < base) ∧ valueFrom base s n ≤ maxVal → parseUintLoop base maxVal s n = .ok (valueFrom base s n)) ∧
    (¬ ((∀ c ∈ s, digitValue c < base) ∧ valueFrom base s n ≤ maxVal) → ∃ e, parseUintLoop base maxVal s n = .err e) := by
  induction s generalizing n with
  | nil => simp [parseUintLoop, valueFrom, hn]
  | cons c s ih =>
    have hstep : valueFrom base (c :: s) n = valueFrom base s (n * base + digitValue c) := rfl
    by_cases hc : digitValue c < base
    · obtain ⟨d, hd, hlt⟩ := (strconvDigit_lt hb' c).2 hc
      have hdv := strconvDigit_eq hd (by omega)
      subst hdv
      have hle := le_valueFrom hb s (n * base + digitValue c)
      by_cases hbig : n * base + digitValue c ≤ maxVal
      · have hcut : ¬ (two64 - 1) / base + 1 ≤ n := by
          intro h
          have h1 : (two64 - 1) / base < n := h
          rw [Nat.div_lt_iff_lt_mul (by omega)] at h1
          have : 0 < two64 := by decide
          omega
        have hm1 : n * base % two64 = n * base := Nat.mod_eq_of_lt (by omega)
        have hm2 : (n * base + digitValue c) % two64 = n * base + digitValue c := Nat.mod_eq_of_lt (by omega)
        have e : parseUintLoop base maxVal (c :: s) n = parseUintLoop base maxVal s (n * base + digitValue c) := by
          simp only [parseUintLoop, hd, hm1, hm2]
          rw [if_neg (by omega), if_neg hcut, if_neg (by omega)]
        rw [e, hstep]
        have := ih (n * base + digitValue c) hbig
        simpa [hc] using this
      · refine ⟨fun h => by rw [hstep] at h; omega, fun _ => ?_⟩
        simp only [parseUintLoop, hd]
        rw [if_neg (by omega)]
        by_cases hcut : (two64 - 1) / base + 1 ≤ n
        · rw [if_pos hcut]; exact ⟨_, rfl⟩
        · rw [if_neg hcut]
          have hcut' : n ≤ (two64 - 1) / base := by omega
          rw [Nat.le_div_iff_mul_le (by omega)] at hcut'
          have h0 : 0 < two64 := by decide
          have hm1 : n * base % two64 = n * base := Nat.mod_eq_of_lt (by omega)
          rw [hm1]
          have : (n * base + digitValue c) % two64 < n * base ∨ maxVal < (n * base + digitValue c) % two64 := by
            by_cases ho : n * base + digitValue c < two64
            · right; rw [Nat.mod_eq_of_lt ho]; omega
            · left
              have h16 : digitValue c < 16 := by omega
              have hbig : 16 < two64 := by decide
              have e1 : (n * base + digitValue c) % two64 = n * base + digitValue c - two64 := by
                rw [Nat.mod_eq_sub_mod (by omega), Nat.mod_eq_of_lt (by omega)]
              omega
          rw [if_pos this]
          exact ⟨_, rfl⟩
    · refine ⟨fun h => absurd (h.1 c (by simp)) hc, fun _ => ?_⟩
      simp only [parseUintLoop]
      cases hd : strconvDigit c with
      | none => exact ⟨_, rfl⟩
      | some d =>
        have : ¬ d < base := fun h => hc ((strconvDigit_lt hb' c).1 ⟨d, hd, h⟩)
        simp only
        rw [if_pos (by omega)]
        exact ⟨_, rfl⟩

/-- `ParseUint` accepts exactly the numerals in range. -/
theorem strconvParseUint_spec {base bits : Nat} (hb : 2 ≤ base) (hb' : base ≤ 16) (hbits : bits ≤ 64) (s : GoStr) :
    (Numeral base s ∧ numeralValue base s < 2 ^ bits → strconvParseUint s base bits = .ok (numeralValue base s)) ∧
    (¬ (Numeral base s ∧ numeralValue base s < 2 ^ bits) → ∃ e, strconvParseUint s base bits = .err e) := by
  have hpow : 2 ^ bits ≤ two64 := by
    have : two64 = 2 ^ 64 := by decide
    rw [this]; exact Nat.pow_le_pow_right (by omega) hbits
  have hpos : 0 < 2 ^ bits := Nat.two_pow_pos bits
  cases s with
  | nil => simp [strconvParseUint, Numeral]
  | cons c s =>
    obtain ⟨h1, h2⟩ := parseUintLoop_spec hb hb' (maxVal := 2 ^ bits - 1) (by omega) (c :: s) 0 (by omega)
    have hv : valueFrom base (c :: s) 0 = numeralValue base (c :: s) := rfl
    have hiff : (Numeral base (c :: s) ∧ numeralValue base (c :: s) < 2 ^ bits) ↔
        ((∀ x ∈ c :: s, digitValue x < base) ∧ valueFrom base (c :: s) 0 ≤ 2 ^ bits - 1) := by
      rw [hv]
      constructor
      · rintro ⟨h, h'⟩; exact ⟨h.2, by omega⟩
      · rintro ⟨h, h'⟩; exact ⟨⟨by simp, h⟩, by omega⟩
    rw [hiff]
    exact ⟨h1, h2⟩

/-- `ParseInt` of digits without sign. -/
theorem strconvParseInt_unsigned {base bits : Nat} (hb : 2 ≤ base) (hb' : base ≤ 16) (hbits : bits ≤ 64) (hbits' : 2 ≤ bits) (s : GoStr)
    (hs : s.head? ≠ some 43 ∧ s.head? ≠ some 45) :
    (Numeral base s ∧ numeralValue base s < 2 ^ (bits - 1) → strconvParseInt s base bits = .ok (numeralValue base s)) ∧
    (¬ (Numeral base s ∧ numeralValue base s < 2 ^ (bits - 1)) → ∃ e, strconvParseInt s base bits = .err e) := by
  obtain ⟨h1, h2⟩ := strconvParseUint_spec hb hb' hbits s
  have hpow : 2 ^ bits = 2 * 2 ^ (bits - 1) := by
    conv => lhs; rw [show bits = (bits - 1) + 1 by omega, Nat.pow_succ]
    omega
  cases s with
  | nil => simp [strconvParseInt, Numeral]
  | cons c s =>
    have hc1 : c ≠ 43 := by simpa using hs.1
    have hc2 : c ≠ 45 := by simpa using hs.2
    simp only [strconvParseInt, hc1, hc2, or_self, if_false, decide_false]
    by_cases hn : Numeral base (c :: s) ∧ numeralValue base (c :: s) < 2 ^ bits
    · rw [h1 hn]
      by_cases hlt : numeralValue base (c :: s) < 2 ^ (bits - 1)
      · refine ⟨fun _ => ?_, fun h => absurd ⟨hn.1, hlt⟩ h⟩
        simp [hlt]
      · refine ⟨fun h => absurd h.2 hlt, fun _ => ?_⟩
        simp [Nat.le_of_not_lt hlt]
    · obtain ⟨e, he⟩ := h2 hn
      rw [he]
      refine ⟨fun h => absurd ⟨h.1, by omega⟩ hn, fun _ => ⟨e, rfl⟩⟩

/-- `ParseInt` of a sign and digits. -/
theorem strconvParseInt_signed {base bits : Nat} (hb : 2 ≤ base) (hb' : base ≤ 16) (hbits : bits ≤ 64) (hbits' : 2 ≤ bits) (ds : GoStr) :
    (Numeral base ds ∧ numeralValue base ds < 2 ^ (bits - 1) → strconvParseInt (43 :: ds) base bits = .ok (numeralValue base ds)) ∧
    (¬ (Numeral base ds ∧ numeralValue base ds < 2 ^ (bits - 1)) → ∃ e, strconvParseInt (43 :: ds) base bits = .err e) ∧
    (Numeral base ds ∧ numeralValue base ds ≤ 2 ^ (bits - 1) → strconvParseInt (45 :: ds) base bits = .ok (-(numeralValue base ds : Int))) ∧
    (¬ (Numeral base ds ∧ numeralValue base ds ≤ 2 ^ (bits - 1)) → ∃ e, strconvParseInt (45 :: ds) base bits = .err e) := by
  obtain ⟨h1, h2⟩ := strconvParseUint_spec hb hb' hbits ds
  have hpow : 2 ^ bits = 2 * 2 ^ (bits - 1) := by
    conv => lhs; rw [show bits = (bits - 1) + 1 by omega, Nat.pow_succ]
    omega
  have hpos := Nat.two_pow_pos (bits - 1)
  have e43 : ((43 : UInt8) = 45) = False := by decide
  simp only [strconvParseInt, true_or, or_true, if_true, decide_true, e43, decide_false]
  by_cases hn : Numeral base ds ∧ numeralValue base ds < 2 ^ bits
  · rw [h1 hn]
    refine ⟨fun h => ?_, fun h => ?_, fun h => ?_, fun h => ?_⟩
    · simp [h.2]
    · have : 2 ^ (bits - 1) ≤ numeralValue base ds := Nat.le_of_not_lt fun h' => h ⟨hn.1, h'⟩
      simp [this]
    · simp [Nat.not_lt.2 h.2]
    · have : 2 ^ (bits - 1) < numeralValue base ds := Nat.lt_of_not_le fun h' => h ⟨hn.1, h'⟩
      simp [this]
  · obtain ⟨e, he⟩ := h2 hn
    rw [he]
    exact ⟨fun h => absurd ⟨h.1, by omega⟩ hn, fun _ => ⟨e, rfl⟩, fun h => absurd ⟨h.1, by omega⟩ hn, fun _ => ⟨e, rfl⟩⟩

end Verif
