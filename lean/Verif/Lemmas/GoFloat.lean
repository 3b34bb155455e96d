import Verif.Lemmas.FloatConv
import Verif.Model.GoFloat
import Verif.Spec.Text

/-!
# Lemmas: strconv's conversion of floats is what the round trip needs
-/

namespace Verif
open FloatFmt

theorem digits_of {s : GoStr} (h : ∀ c ∈ s, isDigit c = true) (hne : s ≠ []) : Digits s :=
  ⟨hne, fun c hc => by
    have := h c hc
    simpa [isDigit] using this⟩

theorem decimal_text (neg : Bool) (c k : Nat) : DecimalText ((if neg then [45] else []) ++ decimal c k) := by
  obtain ⟨_, h2, h3⟩ := fmtNat_digits (c / 10 ^ k)
  obtain ⟨_, g2, g3⟩ := lastDigits_digits k c
  unfold decimal
  refine ⟨if neg then [45] else [], fmtNat (c / 10 ^ k), if k = 0 then [] else 46 :: lastDigits k c, by simp, by cases neg <;> simp, digits_of h2 h3, ?_⟩
  by_cases hk : k = 0
  · exact .inl (if_pos hk)
  · refine .inr ⟨lastDigits k c, if_neg hk, digits_of g2 ?_⟩
    intro e
    rw [e] at g3
    exact hk (by simpa using g3.symm)

theorem format_shape (f : FloatFmt) (neg : Bool) (b : Nat) (hb : b < f.inf) : DecimalText (f.format f.formatShortest neg b) := by
  obtain ⟨c, k, h1, _⟩ := formatShortest_decimal f b
  unfold format
  rw [if_neg (by omega), if_neg (by omega), h1]
  exact decimal_text neg c k

theorem join_sign (w : Nat) (b : BitVec (w + 1)) : BitVec.ofNat (w + 1) (b.toNat % 2 ^ w + if decide (2 ^ w ≤ b.toNat) then 2 ^ w else 0) = b := by
  apply BitVec.eq_of_toNat_eq
  have hlt := b.isLt
  rw [BitVec.toNat_ofNat]
  have hp : 2 ^ (w + 1) = 2 * 2 ^ w := by rw [Nat.pow_succ]; omega
  have hpos := Nat.two_pow_pos w
  have : b.toNat % 2 ^ w + (if decide (2 ^ w ≤ b.toNat) then 2 ^ w else 0) = b.toNat := by
    by_cases h : 2 ^ w ≤ b.toNat
    · rw [if_pos (by simpa using h), Nat.mod_eq_sub_mod h, Nat.mod_eq_of_lt (by omega)]
      omega
    · rw [if_neg (by simpa using h), Nat.mod_eq_of_lt (by omega)]
      omega
  rw [this, Nat.mod_eq_of_lt hlt]

/-- strconv's conversion of floats, as modelled, meets the assumptions about it. -/
theorem floatOK_go : FloatOK goFloat where
  shape32 b hb := format_shape f32 _ _ hb
  shape64 b hb := format_shape f64 _ _ hb
  back32 b hb := by
    show Option.map _ (f32.parse (f32.format _ _ _)) = _
    rw [parse_formatShortest f32 _ _ hb]
    exact congrArg some (join_sign 31 b)
  back64 b hb := by
    show Option.map _ (f64.parse (f64.format _ _ _)) = _
    rw [parse_formatShortest f64 _ _ hb]
    exact congrArg some (join_sign 63 b)
  nan32 b hb := if_pos (by simpa [isNaN32, isNaNBits, f32] using hb)
  nan64 b hb := if_pos (by simpa [isNaN64, isNaNBits, f64] using hb)
  nanBack32 := ⟨0x7FC00000#32, by decide +kernel, by decide⟩
  nanBack64 := ⟨0x7FF8000000000000#64, by decide +kernel, by decide⟩

end Verif
