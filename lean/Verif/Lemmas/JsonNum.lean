import Verif.Lemmas.Json
import Verif.Lemmas.FloatNear

/-!
# Lemmas on numbers in JSON
-/

namespace Verif
open FloatFmt

theorem fmtNat_head (n : Nat) : (n = 0 ∧ fmtNat n = [48]) ∨ ∃ c cs, fmtNat n = c :: cs ∧ c ≠ 48 := by
  induction n using Nat.strongRecOn with
  | ind n ih =>
    rw [fmtNat]
    by_cases h : n < 10
    · rw [if_pos h]
      by_cases h0 : n = 0
      · subst h0; exact .inl ⟨rfl, rfl⟩
      · right
        refine ⟨_, [], rfl, ?_⟩
        intro e
        have := congrArg UInt8.toNat e
        rw [u8_toNat_ofNat (by omega)] at this
        simp at this; omega
    · rw [if_neg h]
      right
      rcases ih (n / 10) (by omega) with ⟨h0, _⟩ | ⟨c, cs, e, hc⟩
      · omega
      · exact ⟨c, cs ++ [UInt8.ofNat (48 + n % 10)], by rw [e]; rfl, hc⟩

theorem jsonDigits_of (ds rest : GoStr) (hd : ∀ c ∈ ds, isDigit c = true) (hne : ds ≠ []) (hr : ∀ c cs, rest = c :: cs → isDigit c = false) :
    jsonDigits (ds ++ rest) = some (ds, rest) := by
  obtain ⟨h1, h2⟩ := span_digits ds rest hd hr
  rw [jsonDigits, h1, h2, if_neg hne]

theorem jsonWhole_fmtNat (n : Nat) (rest : GoStr) (hr : ∀ c cs, rest = c :: cs → isDigit c = false) : jsonWhole (fmtNat n ++ rest) = some (fmtNat n, rest) := by
  obtain ⟨_, h2, h3⟩ := fmtNat_digits n
  rcases fmtNat_head n with ⟨_, e⟩ | ⟨c, cs, e, hc⟩
  · rw [e]
    simp [jsonWhole]
  · have := jsonDigits_of (fmtNat n) rest h2 h3 hr
    rw [e, List.cons_append] at this ⊢
    rw [jsonWhole, if_neg hc]
    exact this

theorem Ends.notNumber {rest : GoStr} (h : Ends rest) : ∀ c cs, rest = c :: cs → isDigit c = false ∧ c ≠ 46 ∧ c ≠ 101 ∧ c ≠ 69 := by
  intro c cs e
  rcases h with h | ⟨d, ds, e', hd⟩
  · rw [h] at e; simp at e
  · rw [e'] at e
    simp only [List.cons.injEq] at e
    rw [← e.1]
    rcases hd with rfl | rfl | rfl <;> decide

theorem jsonExp_ends {rest : GoStr} (h : Ends rest) : jsonExp rest = some ([], rest) := by
  cases rest with
  | nil => rfl
  | cons c cs =>
    have := h.notNumber c cs rfl
    unfold jsonExp
    simp only
    rw [if_neg (by simp [this.2.2.1, this.2.2.2])]

/-- A decimal without leading zeros is a JSON number. -/
theorem jsonNum_decimal (neg : Bool) (c k : Nat) : JsonNum ((if neg then [45] else []) ++ decimal c k) := by
  obtain ⟨_, h2, h3⟩ := fmtNat_digits (c / 10 ^ k)
  obtain ⟨_, g2, g3⟩ := lastDigits_digits k c
  obtain ⟨d, ds, hd⟩ : ∃ d ds, fmtNat (c / 10 ^ k) = d :: ds := by
    match h : fmtNat (c / 10 ^ k), h3 with
    | d :: ds, _ => exact ⟨d, ds, rfl⟩
  have hdig := h2 d (by rw [hd]; simp)
  have hdig' : 48 ≤ d ∧ d ≤ 57 := by simpa [isDigit] using hdig
  constructor
  · cases neg with
    | true => exact ⟨45, _, rfl, .inl rfl⟩
    | false => exact ⟨d, ds ++ (if k = 0 then [] else 46 :: lastDigits k c), by simp [decimal, hd], .inr hdig'⟩
  · intro rest hr
    have hrest := hr.notNumber
    have key : ∃ r1, jsonWhole (decimal c k ++ rest) = some (fmtNat (c / 10 ^ k), r1) ∧ jsonFrac r1 = some (if k = 0 then [] else 46 :: lastDigits k c, rest) := by
      unfold decimal
      rw [List.append_assoc]
      refine ⟨_, jsonWhole_fmtNat _ _ ?_, ?_⟩
      · intro x xs e
        by_cases hk : k = 0
        · rw [if_pos hk] at e; exact (hrest x xs e).1
        · rw [if_neg hk] at e
          simp only [List.cons_append, List.cons.injEq] at e
          rw [← e.1]; decide
      · by_cases hk : k = 0
        · rw [if_pos hk, List.nil_append]
          cases rest with
          | nil => rfl
          | cons x xs => rw [jsonFrac, if_neg (hrest x xs rfl).2.1]
        · rw [if_neg hk, List.cons_append, jsonFrac, if_pos rfl, jsonDigits_of _ _ g2 (fun e => by rw [e] at g3; exact hk (by simpa using g3.symm)) (fun x xs e => (hrest x xs e).1)]
          rfl
    obtain ⟨r1, k1, k2⟩ := key
    have hsign : (if ((if neg then [45] else []) ++ decimal c k ++ rest).head? = some (45 : UInt8) then [45] else []) = if neg then [(45 : UInt8)] else [] := by
      cases neg with
      | true => rfl
      | false =>
        simp only [Bool.false_eq_true, if_false, List.nil_append, decimal, hd, List.cons_append, List.head?_cons, Option.some.injEq]
        rw [if_neg]
        rintro rfl
        revert hdig'; decide
    unfold jsonNumber
    simp only [hsign]
    have hdrop : ((if neg then [45] else []) ++ decimal c k ++ rest).drop (if neg then [(45 : UInt8)] else []).length = decimal c k ++ rest := by
      cases neg <;> simp
    rw [hdrop, k1]
    simp only
    rw [k2]
    simp only
    rw [jsonExp_ends hr]
    simp [decimal]

theorem fmtInt_decimal (v : Int) : fmtInt v = (if decide (v < 0) then [45] else []) ++ decimal v.natAbs 0 := by
  unfold fmtInt decimal
  by_cases h : v < 0 <;> simp [h]

theorem jsonNum_int (v : Int) : JsonNum (fmtInt v) := by
  rw [fmtInt_decimal]
  exact jsonNum_decimal _ _ _

theorem format_decimal (f : FloatFmt) (neg : Bool) (b : Nat) (hb : b < f.inf) : ∃ c k, f.format f.formatShortest neg b = (if neg then [45] else []) ++ decimal c k := by
  obtain ⟨c, k, h1, _⟩ := formatShortest_decimal f b
  refine ⟨c, k, ?_⟩
  unfold format
  rw [if_neg (by omega), if_neg (by omega), h1]

theorem jsonNum_f32 (b : BitVec 32) (h : finite32 b) : JsonNum (goFloat.fmt32 b) := by
  obtain ⟨c, k, e⟩ := format_decimal f32 (decide (2 ^ 31 ≤ b.toNat)) (b.toNat % 2 ^ 31) h
  show JsonNum (f32.format _ _ _)
  rw [e]
  exact jsonNum_decimal _ _ _

theorem jsonNum_f64 (b : BitVec 64) (h : finite64 b) : JsonNum (goFloat.fmt64 b) := by
  obtain ⟨c, k, e⟩ := format_decimal f64 (decide (2 ^ 63 ≤ b.toNat)) (b.toNat % 2 ^ 63) h
  show JsonNum (f64.format _ _ _)
  rw [e]
  exact jsonNum_decimal _ _ _

/-! ## Integers as floats -/

/-- A whole number of at most 53 significant bits. -/
theorem units_whole (n m e : Nat) (h : n = m * 2 ^ e) (hm : m < 2 ^ 53) (hn : n ≤ 2 ^ 64) : ∃ b, f64.units b = n * 2 ^ 1074 ∧ b < f64.inf := by
  by_cases h0 : n = 0
  · exact ⟨0, by rw [h0, Nat.zero_mul]; rfl, by decide⟩
  have hm0 : m ≠ 0 := by rintro rfl; simp at h; exact h0 h
  -- the mantissa, with all its bits
  have hlog := Nat.log2_lt hm0 |>.2 hm
  have hlo := Nat.log2_self_le hm0
  have hhi := Nat.lt_log2_self (n := m)
  have he : e < 65 := by
    refine Nat.lt_of_not_le fun hge => ?_
    have := Nat.pow_le_pow_right (show 0 < 2 by omega) hge
    have h2 : 1 * 2 ^ e ≤ m * 2 ^ e := Nat.mul_le_mul_right _ (by omega)
    omega
  have hp : 2 ^ (m.log2) * 2 ^ (52 - m.log2) = 2 ^ 52 := by rw [← Nat.pow_add]; congr 1; omega
  have hp' : 2 ^ (m.log2 + 1) * 2 ^ (52 - m.log2) = 2 ^ 53 := by rw [← Nat.pow_add]; congr 1; omega
  have hge : 2 ^ 52 ≤ m * 2 ^ (52 - m.log2) := by rw [← hp]; exact Nat.mul_le_mul_right _ hlo
  have hle : m * 2 ^ (52 - m.log2) < 2 ^ 53 := by rw [← hp']; exact Nat.mul_lt_mul_of_pos_right hhi (Nat.two_pow_pos _)
  have hu := units_at f64 (e + 1074 - (52 - m.log2)) (m * 2 ^ (52 - m.log2)) (.inr hge) (Nat.le_of_lt hle)
  refine ⟨_, hu.trans ?_, ?_⟩
  · rw [h, Nat.mul_assoc, Nat.mul_assoc, ← Nat.pow_add, ← Nat.pow_add]
    congr 2; omega
  · have e1 : f64.mant = 52 := rfl
    have e2 : f64.inf = 2047 * 2 ^ 52 := rfl
    rw [e1, e2]
    have : (e + 1074 - (52 - m.log2)) * 2 ^ 52 ≤ 1138 * 2 ^ 52 := Nat.mul_le_mul_right _ (by omega)
    omega

theorem int_bits (neg : Bool) (b : Nat) (hb : b < f64.inf) : (BitVec.ofNat 64 (b + if neg then 2 ^ 63 else 0)).toNat = b + (if neg then 2 ^ 63 else 0) := by
  have e2 : f64.inf = 2047 * 2 ^ 52 := rfl
  rw [e2] at hb
  rw [BitVec.toNat_ofNat, Nat.mod_eq_of_lt]
  split <;> omega

/-- The integer nearest to which the text of an integer is read. -/
theorem parse_int (v : Int) (b : Nat) (hb : b < f64.inf) (h : f64.nearest (v.natAbs * 2 ^ 1074) 1 = b) :
    goFloat.parse64 (fmtInt v) = some (BitVec.ofNat 64 (b + if decide (v < 0) then 2 ^ 63 else 0)) := by
  show Option.map _ (f64.parse _) = _
  have : f64.nearest (v.natAbs * 2 ^ f64.scale) (10 ^ 0) = b := h
  rw [fmtInt_decimal, parse_decimal f64 _ _ _ (by rw [this]; exact hb), this]
  rfl

theorem trunc_int (neg : Bool) (b : Nat) (hb : b < f64.inf) :
    f64Trunc (BitVec.ofNat 64 (b + if neg then 2 ^ 63 else 0)) = some (if neg then -((f64.units b / 2 ^ 1074 : Nat) : Int) else ((f64.units b / 2 ^ 1074 : Nat) : Int)) := by
  have e2 : f64.inf = 2047 * 2 ^ 52 := rfl
  have hm : (b + if neg then 2 ^ 63 else 0) % 2 ^ 63 = b := by
    rw [e2] at hb
    cases neg
    · simp; omega
    · simp; omega
  unfold f64Trunc
  rw [int_bits neg b hb]
  simp only [hm, if_pos hb]
  have e3 : f64.scale = 1074 := rfl
  rw [e3]
  rw [e2] at hb
  cases neg
  · rw [if_neg (show ¬ (2 ^ 63 ≤ b + if false = true then 2 ^ 63 else 0) by simp; omega)]
    rfl
  · rw [if_pos (show 2 ^ 63 ≤ b + if true = true then 2 ^ 63 else 0 by simp)]
    rfl

/-- An integer of at most 53 significant bits is read back exactly. -/
theorem int_exact (v : Int) (m e : Nat) (h : v.natAbs = m * 2 ^ e) (hm : m < 2 ^ 53) (hv : v.natAbs < 2 ^ 64) :
    ∃ x, goFloat.parse64 (fmtInt v) = some x ∧ f64Trunc x = some v := by
  obtain ⟨b, hb, hlt⟩ := units_whole v.natAbs m e h hm (Nat.le_of_lt hv)
  have hn : f64.nearest (v.natAbs * 2 ^ 1074) 1 = b := by
    rw [← hb]
    have := nearest_units f64 b 1 (by omega)
    simpa using this
  refine ⟨_, parse_int v b hlt hn, ?_⟩
  rw [trunc_int _ b hlt, hb, Nat.mul_div_cancel _ (Nat.two_pow_pos _)]
  by_cases h0 : v < 0
  · simp [h0]; omega
  · simp [h0]; omega

/-- At most 53 significant bits. -/
def Nat53 (n : Nat) : Prop := ∃ m e : Nat, n = m * 2 ^ e ∧ m < 2 ^ 53

/-- Floats from `2 ^ 53` on are whole. -/
theorem units_int (b : Nat) (h : 2 ^ 53 * 2 ^ 1074 ≤ f64.units b) : ∃ w, f64.units b = w * 2 ^ 1074 ∧ Nat53 w := by
  have e1 : f64.mant = 52 := rfl
  unfold units at h ⊢
  rw [e1] at h ⊢
  have hmod := Nat.mod_lt b (show 0 < 2 ^ 52 by omega)
  generalize b % 2 ^ 52 = m at *
  generalize b / 2 ^ 52 = k at *
  by_cases h0 : k = 0
  · rw [if_pos h0] at h
    have : 2 ^ 53 * 1 ≤ 2 ^ 53 * 2 ^ 1074 := Nat.mul_le_mul_left _ (Nat.two_pow_pos _)
    generalize 2 ^ 53 * 2 ^ 1074 = z at *
    omega
  · rw [if_neg h0] at h ⊢
    have hk : 1074 ≤ k - 1 := by
      refine Nat.le_of_not_lt fun hlt => ?_
      have h1 : 2 ^ (k - 1) ≤ 2 ^ 1074 := Nat.pow_le_pow_right (by omega) (by omega)
      have h2 : (m + 2 ^ 52) * 2 ^ (k - 1) ≤ (m + 2 ^ 52) * 2 ^ 1074 := Nat.mul_le_mul_left _ h1
      have h3 : (m + 2 ^ 52) * 2 ^ 1074 < 2 ^ 53 * 2 ^ 1074 := Nat.mul_lt_mul_of_pos_right (by omega) (Nat.two_pow_pos _)
      generalize 2 ^ 53 * 2 ^ 1074 = z at *
      omega
    refine ⟨(m + 2 ^ 52) * 2 ^ (k - 1 - 1074), ?_, m + 2 ^ 52, k - 1 - 1074, rfl, by omega⟩
    rw [Nat.mul_assoc, ← Nat.pow_add]
    congr 2; omega

/-- The `float64` nearest to a whole number is a whole number; no other whole number of at most 53 bits is nearer. -/
theorem near53 (n : Nat) (hn : n < 2 ^ 64) : ∃ w b, f64.nearest (n * 2 ^ 1074) 1 = b ∧ b < f64.inf ∧ f64.units b = w * 2 ^ 1074 ∧ Nat53 w ∧ w ≤ 2 ^ 64 ∧
    ∀ u, Nat53 u → (n - w) + (w - n) ≤ (n - u) + (u - n) := by
  by_cases hs : n < 2 ^ 53
  · obtain ⟨b, hb, hlt⟩ := units_whole n n 0 (by simp) hs (by omega)
    refine ⟨n, b, ?_, hlt, hb, ⟨n, 0, by simp, hs⟩, by omega, by omega⟩
    have := nearest_units f64 b 1 (by omega)
    rw [← hb]
    simpa using this
  · obtain ⟨b53, h53, _⟩ := units_whole (2 ^ 53) 1 53 (by simp) (by omega) (by omega)
    obtain ⟨b64, h64, hlt64⟩ := units_whole (2 ^ 64) 1 64 (by simp) (by omega) (by omega)
    obtain ⟨b0, k1, k2, k3⟩ := nearest_between f64 (n * 2 ^ 1074) 1 (by omega)
    rw [Nat.mul_one] at k1 k2 k3
    have hpos : 0 < 2 ^ 1074 := Nat.two_pow_pos _
    have cancel : ∀ a b, a * 2 ^ 1074 ≤ b * 2 ^ 1074 → a ≤ b := fun a b h => Nat.le_of_mul_le_mul_right h hpos
    have units_le : ∀ a b, a ≤ b → f64.units a ≤ f64.units b := fun a b h => by
      rcases Nat.lt_or_eq_of_le h with h | h
      · exact Nat.le_of_lt (units_mono f64 h)
      · rw [h]; exact Nat.le_refl _
    have hb53 : b53 < b0 + 1 := units_lt f64 (by
      rw [h53]
      exact Nat.lt_of_le_of_lt (Nat.mul_le_mul_right _ (by omega)) k2)
    have hge : 2 ^ 53 * 2 ^ 1074 ≤ f64.units b0 := by
      rw [← h53]
      rcases Nat.lt_or_eq_of_le (Nat.le_of_lt_succ hb53) with h | h
      · exact Nat.le_of_lt (units_mono f64 h)
      · rw [h]; exact Nat.le_refl _
    obtain ⟨w0, hw0, h0⟩ := units_int b0 hge
    obtain ⟨w1, hw1, h1⟩ := units_int (b0 + 1) (Nat.le_trans hge (Nat.le_of_lt (units_step f64 b0)))
    have hlt0 : b0 < b64 := units_lt f64 (by
      rw [h64]
      exact Nat.lt_of_le_of_lt k1 (Nat.mul_lt_mul_of_pos_right hn hpos))
    have a0 : w0 ≤ n := Nat.le_of_mul_le_mul_right (by rw [← hw0]; exact k1) hpos
    have a1 : n < w1 := Nat.lt_of_mul_lt_mul_right (a := 2 ^ 1074) (by rw [← hw1]; exact k2)
    have a2 : w1 ≤ 2 ^ 64 := by
      apply cancel
      rw [← hw1, ← h64]
      exact units_le _ _ hlt0
    have hgap : ∀ u, Nat53 u → u ≤ w0 ∨ w1 ≤ u := by
      intro u hu
      by_cases hbig : u ≤ 2 ^ 64
      · obtain ⟨m, e, hm, hlt⟩ := hu
        obtain ⟨b, hb, _⟩ := units_whole u m e hm hlt hbig
        rcases Nat.lt_or_ge b0 b with h | h
        · right
          apply cancel
          rw [← hw1, ← hb]
          exact units_le _ _ h
        · left
          apply cancel
          rw [← hw0, ← hb]
          exact units_le _ _ h
      · omega
    have hinf : b0 + 1 < f64.inf := Nat.lt_of_le_of_lt hlt0 hlt64
    rw [hw0, hw1] at k3
    have low : f64.nearest (n * 2 ^ 1074) 1 = b0 → 2 * n ≤ w0 + w1 → ∃ w b, f64.nearest (n * 2 ^ 1074) 1 = b ∧ b < f64.inf ∧ f64.units b = w * 2 ^ 1074 ∧ Nat53 w ∧ w ≤ 2 ^ 64 ∧
        ∀ u, Nat53 u → (n - w) + (w - n) ≤ (n - u) + (u - n) := fun e h => ⟨w0, b0, e, by omega, hw0, h0, by omega, fun u hu => by have := hgap u hu; omega⟩
    have high : f64.nearest (n * 2 ^ 1074) 1 = b0 + 1 → w0 + w1 ≤ 2 * n → ∃ w b, f64.nearest (n * 2 ^ 1074) 1 = b ∧ b < f64.inf ∧ f64.units b = w * 2 ^ 1074 ∧ Nat53 w ∧ w ≤ 2 ^ 64 ∧
        ∀ u, Nat53 u → (n - w) + (w - n) ≤ (n - u) + (u - n) := fun e h => ⟨w1, b0 + 1, e, hinf, hw1, h1, a2, fun u hu => by have := hgap u hu; omega⟩
    have e1 : 2 * (n * 2 ^ 1074) = (2 * n) * 2 ^ 1074 := (Nat.mul_assoc _ _ _).symm
    rw [← Nat.add_mul, e1] at k3
    rcases Nat.lt_trichotomy (2 * n) (w0 + w1) with h | h | h
    · rw [if_pos (Nat.mul_lt_mul_of_pos_right h hpos)] at k3
      exact low k3 (by omega)
    · rw [h, if_neg (Nat.lt_irrefl _), if_neg (Nat.lt_irrefl _)] at k3
      split at k3
      · exact low k3 (by omega)
      · exact high k3 (by omega)
    · rw [if_neg (Nat.not_lt.2 (Nat.le_of_lt (Nat.mul_lt_mul_of_pos_right h hpos))), if_pos (Nat.mul_lt_mul_of_pos_right h hpos)] at k3
      exact high k3 (by omega)

/-- What an integer is read as: no integer of at most 53 significant bits is nearer. -/
theorem int_near (v : Int) (hv : v.natAbs < 2 ^ 64) :
    ∃ x w, goFloat.parse64 (fmtInt v) = some x ∧ f64Trunc x = some w ∧ Nat53 w.natAbs ∧ ∀ u : Int, Nat53 u.natAbs → (v - w).natAbs ≤ (v - u).natAbs := by
  obtain ⟨w, b, h1, h2, h3, h4, h5, h6⟩ := near53 v.natAbs hv
  refine ⟨_, if v < 0 then -(w : Int) else w, parse_int v b h2 h1, ?_, ?_, ?_⟩
  · rw [trunc_int _ b h2, h3, Nat.mul_div_cancel _ (Nat.two_pow_pos _)]
    simp
  · have : (if v < 0 then -(w : Int) else w).natAbs = w := by split <;> omega
    rw [this]; exact h4
  · intro u hu
    have a := h6 _ hu
    have b := h6 0 ⟨0, 0, by simp, by omega⟩
    split <;> omega

end Verif
