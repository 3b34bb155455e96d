import Verif.Lemmas.ValuesRow

/-!
# Lemmas: which float a number in table text is
-/

namespace Verif
namespace FloatFmt

theorem nearest_nearest (f : FloatFmt) (n d : Nat) (hd : 0 < d) : NearestFloat f n d (f.nearest n d) := by
  obtain ⟨b, h1, h2, h3⟩ := nearest_between f n d hd
  have low : ∀ x, x < b → f.units x * d < f.units b * d := fun x hx => Nat.mul_lt_mul_of_pos_right (units_mono f hx) hd
  have high : ∀ x, b + 1 < x → f.units (b + 1) * d < f.units x * d := fun x hx => Nat.mul_lt_mul_of_pos_right (units_mono f hx) hd
  intro m' hne
  rw [h3] at hne ⊢
  simp only [← Int.natCast_mul]
  have hc : m' < b ∨ m' = b ∨ m' = b + 1 ∨ b + 1 < m' := by omega
  have hlow := low m'
  have hhigh := high m'
  rw [Nat.add_mul] at hne ⊢
  by_cases c1 : 2 * n < f.units b * d + f.units (b + 1) * d
  · rw [if_pos c1] at hne ⊢
    rcases hc with hc | hc | hc | hc
    · have := hlow hc
      generalize f.units m' * d = u at *
      generalize f.units b * d = u0 at *
      generalize f.units (b + 1) * d = u1 at *
      omega
    · exact absurd hc hne
    · subst hc
      generalize f.units b * d = u0 at *
      generalize f.units (b + 1) * d = u1 at *
      omega
    · have := hhigh hc
      generalize f.units m' * d = u at *
      generalize f.units b * d = u0 at *
      generalize f.units (b + 1) * d = u1 at *
      omega
  · rw [if_neg c1] at hne ⊢
    by_cases c2 : f.units b * d + f.units (b + 1) * d < 2 * n
    · rw [if_pos c2] at hne ⊢
      rcases hc with hc | hc | hc | hc
      · have := hlow hc
        generalize f.units m' * d = u at *
        generalize f.units b * d = u0 at *
        generalize f.units (b + 1) * d = u1 at *
        omega
      · subst hc
        generalize f.units m' * d = u0 at *
        generalize f.units (m' + 1) * d = u1 at *
        omega
      · exact absurd hc hne
      · have := hhigh hc
        generalize f.units m' * d = u at *
        generalize f.units b * d = u0 at *
        generalize f.units (b + 1) * d = u1 at *
        omega
    · rw [if_neg c2] at hne ⊢
      by_cases c3 : b % 2 = 0
      · rw [if_pos c3] at hne ⊢
        rcases hc with hc | hc | hc | hc
        · have := hlow hc
          generalize f.units m' * d = u at *
          generalize f.units b * d = u0 at *
          generalize f.units (b + 1) * d = u1 at *
          omega
        · exact absurd hc hne
        · subst hc
          generalize f.units b * d = u0 at *
          generalize f.units (b + 1) * d = u1 at *
          omega
        · have := hhigh hc
          generalize f.units m' * d = u at *
          generalize f.units b * d = u0 at *
          generalize f.units (b + 1) * d = u1 at *
          omega
      · rw [if_neg c3] at hne ⊢
        rcases hc with hc | hc | hc | hc
        · have := hlow hc
          generalize f.units m' * d = u at *
          generalize f.units b * d = u0 at *
          generalize f.units (b + 1) * d = u1 at *
          omega
        · subst hc
          generalize f.units m' * d = u0 at *
          generalize f.units (m' + 1) * d = u1 at *
          omega
        · exact absurd hc hne
        · have := hhigh hc
          generalize f.units m' * d = u at *
          generalize f.units b * d = u0 at *
          generalize f.units (b + 1) * d = u1 at *
          omega

theorem nearestFloat_unique (f : FloatFmt) (n d : Nat) (hd : 0 < d) {a b : Nat} (ha : NearestFloat f n d a) (hb : NearestFloat f n d b) : a = b := by
  have main : ∀ a b, NearestFloat f n d a → NearestFloat f n d b → ¬ a < b := by
    intro a b ha hb hlt
    have h1 := ha b (by omega)
    have h2 := hb a (by omega)
    have hge : a + 1 < b := by omega
    have h3 := ha (a + 1) (by omega)
    have h4 := hb (a + 1) (by omega)
    have u1 : f.units a * d < f.units (a + 1) * d := Nat.mul_lt_mul_of_pos_right (units_mono f (by omega)) hd
    have u2 : f.units (a + 1) * d < f.units b * d := Nat.mul_lt_mul_of_pos_right (units_mono f hge) hd
    simp only [← Int.natCast_mul] at h1 h2 h3 h4
    generalize f.units (a + 1) * d = u at *
    generalize f.units a * d = u0 at *
    generalize f.units b * d = u1 at *
    omega
  have h1 := main a b ha hb
  have h2 := main b a hb ha
  omega

theorem nearest_iff (f : FloatFmt) (n d m : Nat) (hd : 0 < d) : f.nearest n d = m ↔ NearestFloat f n d m :=
  ⟨fun h => h ▸ nearest_nearest f n d hd, fun h => nearestFloat_unique f n d hd (nearest_nearest f n d hd) h⟩

theorem isDigit_eq : isDigit = isDec := rfl

theorem digit_dec (c : UInt8) : digitValue c < 10 → c.toNat - 48 = digitValue c :=
  forall_uint8 (p := fun c => digitValue c < 10 → c.toNat - 48 = digitValue c) (by decide +kernel) c

theorem dec_fold (ds : GoStr) (h : ∀ c ∈ ds, digitValue c < 10) (v : Nat) :
    ds.foldl (fun v c => 10 * v + (c.toNat - 48)) v = ds.foldl (fun v c => v * 10 + digitValue c) v := by
  induction ds generalizing v with
  | nil => rfl
  | cons c ds ih =>
    simp only [List.foldl_cons, digit_dec c (h c (by simp)), Nat.mul_comm 10 v]
    exact ih (fun x hx => h x (by simp [hx])) _

theorem decValue_eq {ds : GoStr} (h : ∀ c ∈ ds, digitValue c < 10) : decValue ds = numeralValue 10 ds := dec_fold ds h 0

theorem exp_fold (ds : GoStr) (h : ∀ c ∈ ds, digitValue c < 10) (v : Nat) (hv : valueFrom 10 ds v < 100000) :
    ds.foldl (fun v c => if v < 10000 then 10 * v + (c.toNat - 48) else v) v = ds.foldl (fun v c => v * 10 + digitValue c) v := by
  induction ds generalizing v with
  | nil => rfl
  | cons c ds ih =>
    have hv' : valueFrom 10 ds (v * 10 + digitValue c) < 100000 := hv
    have := le_valueFrom (base := 10) (by omega) ds (v * 10 + digitValue c)
    simp only [List.foldl_cons]
    rw [if_pos (by omega), digit_dec c (h c (by simp)), Nat.mul_comm 10 v]
    exact ih (fun x hx => h x (by simp [hx])) _ hv'

theorem expValue_eq {ds : GoStr} (h : ∀ c ∈ ds, digitValue c < 10) (hv : numeralValue 10 ds < 100000) : expValue ds = numeralValue 10 ds := exp_fold ds h 0 hv

theorem readExponent_of {x : GoStr} {e : Int} (h : ExponentText x e) (he : e.natAbs < 100000) : readExponent x = some e := by
  have good : ∀ {ds : GoStr}, Numeral 10 ds → ds ≠ [] ∧ ds.all isDigit = true := fun h => ⟨h.1, List.all_eq_true.2 (isDec_all h.2)⟩
  cases h with
  | none => rfl
  | @plain c ds hc h =>
    have hg := good h
    have hv := expValue_eq h.2 (by omega)
    match ds, h, hg, hv with
    | d :: ds, h, hg, hv =>
      have hd := h.2 d (by simp)
      have h1 : d ≠ 43 := by rintro rfl; revert hd; decide
      have h2 : d ≠ 45 := by rintro rfl; revert hd; decide
      simp only [readExponent, if_pos hc]
      split
      · next heq => simp at heq; exact absurd heq.1 h1
      · next heq => simp at heq; exact absurd heq.1 h2
      · rw [if_pos hg, hv]
  | plus hc h =>
    have hg := good h
    have hv := expValue_eq h.2 (by omega)
    simp only [readExponent, if_pos hc]
    rw [if_pos hg, hv]
  | minus hc h =>
    have hg := good h
    have hv := expValue_eq h.2 (by omega)
    simp only [readExponent, if_pos hc]
    rw [if_pos hg, hv]

theorem exponent_head {x : GoStr} {e : Int} (h : ExponentText x e) : ∀ c cs, x = c :: cs → isDec c = false ∧ c ≠ 46 := by
  intro c cs hx
  have : c = 101 ∨ c = 69 := by
    cases h with
    | none => simp at hx
    | plain hc _ => simp at hx; rw [← hx.1]; exact hc
    | plus hc _ => simp at hx; rw [← hx.1]; exact hc
    | minus hc _ => simp at hx; rw [← hx.1]; exact hc
  rcases this with rfl | rfl <;> decide

theorem readDecimal_of {m x : GoStr} {n k : Nat} {e : Int} (hm : MantissaText m n k) (hx : ExponentText x e) (he : e.natAbs < 100000) :
    readDecimal (m ++ x) = some (n, e - k) := by
  have hex := readExponent_of hx he
  have hh := exponent_head hx
  cases hm with
  | whole h =>
    have ht := takeWhile_all (p := isDec) (a := m) (b := x) (isDec_all h.2) (fun c cs e => (hh c cs e).1)
    simp only [readDecimal, isDigit_eq, ht.1, ht.2, if_neg h.1]
    split
    · next r => exact absurd rfl (hh 46 r rfl).2
    · rw [hex, decValue_eq h.2]; simp
  | @point ds fs h =>
    have hd : ∀ c ∈ ds, isDec c = true := fun c hc => isDec_all h.2 c (by simp [hc])
    have hf : ∀ c ∈ fs, isDec c = true := fun c hc => isDec_all h.2 c (by simp [hc])
    have h1 := takeWhile_all (p := isDec) (a := ds) (b := 46 :: (fs ++ x)) hd (by
      intro c cs e
      simp only [List.cons.injEq] at e
      rw [← e.1]; decide)
    have h2 := takeWhile_all (p := isDec) (a := fs) (b := x) hf (fun c cs e => (hh c cs e).1)
    rw [List.append_assoc, List.cons_append]
    simp only [readDecimal, isDigit_eq, h1.1, h1.2, h2.1, h2.2, if_neg h.1, hex, Option.map_some, decValue_eq h.2]

theorem mantissa_head {m : GoStr} {n k : Nat} (hm : MantissaText m n k) : ∃ c cs, m = c :: cs ∧ (digitValue c < 10 ∨ c = 46) := by
  cases hm with
  | whole h =>
    match m, h with
    | d :: ds, h => exact ⟨d, ds, rfl, .inl (h.2 d (by simp))⟩
  | @point ds fs h =>
    match ds, h with
    | d :: ds, h => exact ⟨d, _, rfl, .inl (h.2 d (by simp))⟩
    | [], h => exact ⟨46, _, rfl, .inr rfl⟩

theorem mantissa_first (c : UInt8) : (digitValue c < 10 ∨ c = 46) → c ≠ 43 ∧ c ≠ 45 ∧ lowerByte c ≠ 105 ∧ lowerByte c ≠ 110 :=
  forall_uint8 (p := fun c => (digitValue c < 10 ∨ c = 46) → c ≠ 43 ∧ c ≠ 45 ∧ lowerByte c ≠ 105 ∧ lowerByte c ≠ 110) (by decide +kernel) c

theorem parse_lit (f : FloatFmt) {s m x : GoStr} {neg : Bool} {n k : Nat} {e : Int} (hs : SignText s neg) (hm : MantissaText m n k) (hx : ExponentText x e)
    (he : e.natAbs < 100000) : f.parse (s ++ m ++ x) = (f.ofDecimal n (e - k)).map fun b => (neg, b) := by
  obtain ⟨c, cs, hc, hcc⟩ := mantissa_head hm
  obtain ⟨h1, h2, h3, h4⟩ := mantissa_first c hcc
  have hsp : ∃ sg, splitSign (s ++ m ++ x) = (sg, neg, m ++ x) := by
    cases hs with
    | plus => exact ⟨true, rfl⟩
    | minus => exact ⟨true, rfl⟩
    | none =>
      refine ⟨false, ?_⟩
      rw [hc]
      simp only [List.nil_append, List.cons_append, splitSign]
      split
      · next heq => simp at heq; exact absurd heq.1 h1
      · next heq => simp at heq; exact absurd heq.1 h2
      · rfl
  obtain ⟨sg, hsp⟩ := hsp
  have hd := readDecimal_of hm hx he
  unfold parse
  rw [hsp]
  simp only [hd]
  have n1 : ¬ (List.map lowerByte (m ++ x) = gs! "inf" ∨ List.map lowerByte (m ++ x) = gs! "infinity") := by
    rw [hc]
    simp [h3]
  have n2 : ¬ (List.map lowerByte (m ++ x) = gs! "nan" ∧ sg = false) := by
    rw [hc]
    simp [h4]
  rw [if_neg n1, if_neg n2]

theorem ofDecimal_iff (f : FloatFmt) (n : Nat) (e : Int) (b : Nat) : f.ofDecimal n e = some b ↔
    b < f.inf ∧ NearestFloat f (n * 10 ^ e.toNat * 2 ^ f.scale) (10 ^ (-e).toNat) b := by
  have hb : (if 0 ≤ e then f.nearest (n * 10 ^ e.toNat * 2 ^ f.scale) 1 else f.nearest (n * 2 ^ f.scale) (10 ^ (-e).toNat)) =
      f.nearest (n * 10 ^ e.toNat * 2 ^ f.scale) (10 ^ (-e).toNat) := by
    split
    · next h => rw [show (-e).toNat = 0 by omega, Nat.pow_zero]
    · next h => rw [show e.toNat = 0 by omega, Nat.pow_zero, Nat.mul_one]
  unfold ofDecimal
  simp only [hb]
  rw [← nearest_iff f _ _ _ (Nat.pow_pos (by omega))]
  generalize f.nearest (n * 10 ^ e.toNat * 2 ^ f.scale) (10 ^ (-e).toNat) = b'
  constructor
  · intro h
    split at h
    · next hlt =>
      simp only [Option.some.injEq] at h
      subst h
      exact ⟨hlt, rfl⟩
    · simp at h
  · rintro ⟨hlt, rfl⟩
    rw [if_pos hlt]

end FloatFmt

theorem NanOK.goFloat : NanOK goFloat := by
  constructor
  · rintro w ⟨a, b, c, rfl, ha, hb, hc⟩ r h
    have e : Verif.goFloat.parse32 [a, b, c] = Verif.goFloat.parse32 (gs! "NaN") := by
      rcases ha with rfl | rfl <;> rcases hb with rfl | rfl <;> rcases hc with rfl | rfl <;> decide +kernel
    rw [e] at h
    have e2 : Verif.goFloat.parse32 (gs! "NaN") = some 0x7FC00000#32 := by decide +kernel
    rw [e2] at h
    simp only [Option.some.injEq] at h
    subst h
    decide
  · rintro w ⟨a, b, c, rfl, ha, hb, hc⟩ r h
    have e : Verif.goFloat.parse64 [a, b, c] = Verif.goFloat.parse64 (gs! "NaN") := by
      rcases ha with rfl | rfl <;> rcases hb with rfl | rfl <;> rcases hc with rfl | rfl <;> decide +kernel
    rw [e] at h
    have e2 : Verif.goFloat.parse64 (gs! "NaN") = some 0x7FF8000000000000#64 := by decide +kernel
    rw [e2] at h
    simp only [Option.some.injEq] at h
    subst h
    decide

end Verif
