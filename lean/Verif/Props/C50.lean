import Verif.Model.Util

/-!
# C50 Trimming zeros does not change a number
-/

namespace Verif

/-! ## Specification: the value of a decimal text -/

/-- The value of a string of digits. -/
def digitsVal (l : GoStr) : Nat := l.foldl (fun v b => 10 * v + (b.toNat - 48)) 0

/-- The value of `whole.fraction`, without sign. -/
def unsignedVal (s : GoStr) : Rat :=
  let whole := s.takeWhile (· ≠ 46)
  let fraction := (s.dropWhile (· ≠ 46)).drop 1
  mkRat (digitsVal (whole ++ fraction)) (10 ^ fraction.length)

/-- The value of an optional sign and `whole.fraction`. -/
def signedVal : GoStr → Rat
  | 45 :: r => - unsignedVal r
  | 43 :: r => unsignedVal r
  | r => unsignedVal r

/-- The value of a decimal text: optional sign, digits, optional point and digits; spaces at the end do not count. -/
def decimalVal (s : GoStr) : Rat := signedVal (s.reverse.dropWhile (· = 32)).reverse

/-! ## The shape of the results -/

theorem padLoop_noPoint (i : Nat) (b : List UInt8) : padLoop false i b = b := by
  induction i with
  | zero => rfl
  | succ i ih => simp only [padLoop]; split <;> simp [ih]

theorem trimLoop_noPoint (i : Nat) (b : List UInt8) : trimLoop false i b = b := by
  induction i with
  | zero => rfl
  | succ i ih => simp only [trimLoop]; split <;> simp [ih]

/-- What is left of the digits after the point: zeros at the end are dropped, but not the first digit. -/
def Stripped (f f' : List UInt8) (k : Nat) : Prop :=
  f = f' ++ List.replicate k 48 ∧ (f = [] → k = 0) ∧ (f ≠ [] → f' ≠ []) ∧ (f'.length ≤ 1 ∨ f'.getLast? ≠ some 48)

theorem loops_spec (w f : List UInt8) (j : Nat) (hf : 46 ∉ f) :
    ∃ f' k, Stripped f f' k ∧
      padLoop true (w.length + f.length) (w ++ 46 :: f ++ List.replicate j 32) = w ++ 46 :: f' ++ List.replicate (k + j) 32 ∧
      trimLoop true (w.length + f.length) (w ++ 46 :: f) = w ++ 46 :: f' := by
  induction hn : f.length generalizing f j with
  | zero =>
    have : f = [] := List.eq_nil_of_length_eq_zero hn
    subst this
    refine ⟨[], 0, ⟨rfl, by simp, by simp, by simp⟩, ?_, ?_⟩
    · cases hw : w.length with
      | zero => simp [padLoop]
      | succ i =>
        have h1 : (w ++ 46 :: [] ++ List.replicate j 32)[i + 1]? = some 46 := by
          rw [List.append_assoc, List.getElem?_append_right (by omega)]
          simp [hw]
        simp only [Nat.add_zero, padLoop, h1]
        simp
    · cases hw : w.length with
      | zero => simp [trimLoop]
      | succ i =>
        have h1 : (w ++ 46 :: [])[i + 1]? = some 46 := by
          rw [List.getElem?_append_right (by omega)]
          simp [hw]
        simp only [Nat.add_zero, trimLoop, h1]
        simp
  | succ n ih =>
    rcases List.eq_nil_or_concat f with rfl | ⟨g, x, rfl⟩
    · simp at hn
    rw [List.concat_eq_append] at hf hn ⊢
    have hg : g.length = n := by simpa using hn
    have hfg : 46 ∉ g := fun h => hf (by simp [h])
    have p1 : (w ++ 46 :: (g ++ [x]) ++ List.replicate j 32)[w.length + n + 1]? = some x := by
      rw [show w ++ 46 :: (g ++ [x]) ++ List.replicate j 32 = (w ++ 46 :: g) ++ x :: List.replicate j 32 by simp]
      rw [List.getElem?_append_right (by simp; omega)]
      simp [hg, Nat.add_assoc]
    have p2 : (w ++ 46 :: (g ++ [x]))[w.length + n + 1]? = some x := by
      rw [show w ++ 46 :: (g ++ [x]) = (w ++ 46 :: g) ++ [x] by simp]
      rw [List.getElem?_append_right (by simp; omega)]
      simp [hg, Nat.add_assoc]
    have q1 : ∀ t, (w ++ 46 :: (g ++ [x]) ++ t)[w.length + n]? = (46 :: g)[n]? := by
      intro t
      rw [show w ++ 46 :: (g ++ [x]) ++ t = w ++ ((46 :: g) ++ x :: t) by simp]
      rw [List.getElem?_append_right (by omega), List.getElem?_append_left (by simp; omega)]
      simp
    have q2 := q1 []
    rw [List.append_nil] at q2
    have q3 : (46 :: g)[n]? = some 46 ↔ g = [] := by
      cases n with
      | zero => simp [List.eq_nil_of_length_eq_zero hg]
      | succ m =>
        constructor
        · intro h
          rw [List.getElem?_cons_succ] at h
          exact absurd (List.mem_of_getElem? h) hfg
        · rintro rfl; simp at hg
    rw [show w.length + (n + 1) = (w.length + n) + 1 by omega]
    simp only [padLoop, trimLoop, p1, p2, q1, q2, q3]
    by_cases hstop : g = [] ∨ x ≠ 48
    · have hst : (g = [] ∨ some x ≠ some 48) := by simpa using hstop
      rw [if_pos hst, if_pos hst]
      refine ⟨g ++ [x], 0, ⟨by simp, by simp, by simp, ?_⟩, by simp, rfl⟩
      rcases hstop with rfl | hx
      · left; simp
      · right; simpa using hx
    · have hx : x = 48 := by
        rcases Decidable.em (x = 48) with h | h
        · exact h
        · exact absurd (Or.inr h) hstop
      have hgne : g ≠ [] := fun h => hstop (Or.inl h)
      subst hx
      have hns : ¬ (g = [] ∨ some (48 : UInt8) ≠ some 48) := by simpa using hgne
      rw [if_neg hns, if_neg hns]
      have s1 : (w ++ 46 :: (g ++ [48]) ++ List.replicate j 32).set (w.length + n + 1) 32 = w ++ 46 :: g ++ List.replicate (j + 1) 32 := by
        rw [show w ++ 46 :: (g ++ [48]) ++ List.replicate j 32 = (w ++ 46 :: g) ++ 48 :: List.replicate j 32 by simp]
        rw [List.set_append_right _ _ (by simp; omega)]
        simp [hg, Nat.add_assoc, List.replicate_succ]
      have s2 : trimSuffixSpace ((w ++ 46 :: (g ++ [48])).set (w.length + n + 1) 32) = w ++ 46 :: g := by
        rw [show w ++ 46 :: (g ++ [48]) = (w ++ 46 :: g) ++ [48] by simp]
        rw [List.set_append_right _ _ (by simp; omega)]
        have : w.length + n + 1 - (w ++ 46 :: g).length = 0 := by simp; omega
        rw [this]
        simp only [List.set_cons_zero, trimSuffixSpace, List.getLast?_concat, if_true, List.dropLast_concat]
      simp only [if_true, s1, s2]
      obtain ⟨f', k, ⟨h1, h2, h3, h4⟩, h5, h6⟩ := ih g (j + 1) hfg hg
      refine ⟨f', k + 1, ⟨?_, by simp, fun _ => h3 hgne, h4⟩, ?_, h6⟩
      · conv => lhs; rw [h1]
        rw [List.replicate_succ', List.append_assoc]
      · rw [h5]; congr 2; omega

/-- **C50**, texts without a point are left alone. -/
theorem C50_noPoint (s : GoStr) (h : 46 ∉ s) : padTrailingZeros s = s ∧ trimTrailingZeros s = s := by
  have : s.contains 46 = false := by simpa using h
  simp only [padTrailingZeros, trimTrailingZeros, this, padLoop_noPoint, trimLoop_noPoint, and_self]

/-- **C50**, texts with a point: the zeros at the end, but not a digit just after the point, are removed (`trimTrailingZeros`) or replaced
with spaces (`padTrailingZeros`), and nothing else changes. -/
theorem C50_shape (w f : GoStr) (hf : 46 ∉ f) :
    ∃ f' k, Stripped f f' k ∧ trimTrailingZeros (w ++ 46 :: f) = w ++ 46 :: f' ∧
      padTrailingZeros (w ++ 46 :: f) = w ++ 46 :: f' ++ List.replicate k 32 := by
  obtain ⟨f', k, h1, h2, h3⟩ := loops_spec w f 0 hf
  have hc : (w ++ 46 :: f).contains 46 = true := by simp
  have hl : (w ++ 46 :: f).length - 1 = w.length + f.length := by simp
  refine ⟨f', k, h1, ?_, ?_⟩
  · rw [trimTrailingZeros, hc, hl, h3]
  · rw [padTrailingZeros, hc, hl]
    simpa using h2

theorem digitsVal_zeros (l : GoStr) (k : Nat) : digitsVal (l ++ List.replicate k 48) = digitsVal l * 10 ^ k := by
  induction k with
  | zero => simp
  | succ k ih =>
    have e : ∀ (l : GoStr) b, digitsVal (l ++ [b]) = 10 * digitsVal l + (b.toNat - 48) := by
      intro l b; simp [digitsVal]
    rw [List.replicate_succ', ← List.append_assoc, e, ih, Nat.pow_succ]
    have : (48 : UInt8).toNat - 48 = 0 := by decide
    rw [this, Nat.add_zero, Nat.mul_comm 10, Nat.mul_assoc]

theorem split_point (w f : GoStr) (hw : 46 ∉ w) :
    (w ++ 46 :: f).takeWhile (· ≠ 46) = w ∧ (w ++ 46 :: f).dropWhile (· ≠ 46) = 46 :: f := by
  induction w with
  | nil => simp
  | cons a w ih =>
    have ha : a ≠ 46 := fun h => hw (by simp [h])
    have := ih (fun h => hw (by simp [h]))
    simp only [List.cons_append, List.takeWhile_cons, List.dropWhile_cons]
    simpa [ha] using this

theorem unsignedVal_zeros (w f' : GoStr) (k : Nat) (hw : 46 ∉ w) :
    unsignedVal (w ++ 46 :: (f' ++ List.replicate k 48)) = unsignedVal (w ++ 46 :: f') := by
  simp only [unsignedVal, split_point w _ hw, List.drop_one, List.tail_cons]
  rw [← List.append_assoc, digitsVal_zeros, List.length_append, List.length_replicate, Nat.pow_add]
  have : (10 ^ k : Nat) ≠ 0 := by simp
  push_cast
  have e := Rat.mkRat_mul_right (n := (digitsVal (w ++ f') : Int)) (d := 10 ^ f'.length) this
  simpa using e

theorem rstrip_spaces (l : GoStr) (k : Nat) (h : l.getLast? ≠ some 32) :
    ((l ++ List.replicate k 32).reverse.dropWhile (· = 32)).reverse = l := by
  rw [List.reverse_append, List.reverse_replicate]
  have e1 : ∀ k (m : GoStr), (List.replicate k 32 ++ m).dropWhile (· = 32) = m.dropWhile (· = 32) := by
    intro k m
    induction k with
    | zero => simp
    | succ k ih => simpa [List.replicate_succ] using ih
  rw [e1]
  have e2 : l.reverse.dropWhile (· = 32) = l.reverse := by
    cases hl : l.reverse with
    | nil => rfl
    | cons a m =>
      have : l.getLast? = some a := by rw [← List.head?_reverse, hl]; rfl
      have ha : a ≠ 32 := fun e => h (by rw [this, e])
      simp [List.dropWhile_cons, ha]
  rw [e2, List.reverse_reverse]

/-- **C50**, the value: trimming or padding the zeros of a decimal text with a point does not change its value. -/
theorem C50_value (w f : GoStr) (hw : 46 ∉ w) (hf : ∀ b ∈ f, 48 ≤ b.toNat ∧ b.toNat ≤ 57) :
    decimalVal (trimTrailingZeros (w ++ 46 :: f)) = decimalVal (w ++ 46 :: f) ∧
    decimalVal (padTrailingZeros (w ++ 46 :: f)) = decimalVal (w ++ 46 :: f) := by
  have hf46 : 46 ∉ f := fun h => by have := hf 46 h; simp at this
  obtain ⟨f', k, ⟨h1, _⟩, h2, h3⟩ := C50_shape w f hf46
  rw [h2, h3, h1]
  have hlast : ∀ g : GoStr, (∀ b ∈ g, b ∈ f) → (w ++ 46 :: g).getLast? ≠ some 32 := by
    intro g hg
    rw [List.getLast?_append]
    rcases List.eq_nil_or_concat g with rfl | ⟨g0, x, rfl⟩
    · simp
    · simp only [List.concat_eq_append] at hg ⊢
      rw [← List.cons_append, List.getLast?_append]
      have := hf x (hg x (by simp))
      simp only [List.getLast?_singleton, Option.some_or, ne_eq, Option.some.injEq]
      rintro rfl
      simp at this
  have d0 : ∀ g : GoStr, (∀ b ∈ g, b ∈ f) → ∀ j, decimalVal (w ++ 46 :: g ++ List.replicate j 32) =
      signedVal (w ++ 46 :: g) := by
    intro g hg j
    simp only [decimalVal]
    rw [rstrip_spaces _ _ (hlast g hg)]
  have hsub : ∀ b ∈ f', b ∈ f := fun b hb => by rw [h1]; simp [hb]
  have d1 := d0 f' hsub 0
  have d2 := d0 f' hsub k
  have d3 := d0 f (fun _ h => h) 0
  rw [List.replicate_zero, List.append_nil] at d1 d3
  rw [d2, d1, ← h1, d3]
  suffices hh : signedVal (w ++ 46 :: f') = signedVal (w ++ 46 :: f) from ⟨hh, hh⟩
  rw [h1]
  match w, hw with
  | [], hw => exact (unsignedVal_zeros [] f' k hw).symm
  | a :: w, hw =>
    have hw' : 46 ∉ w := fun h => hw (by simp [h])
    have u1 := unsignedVal_zeros w f' k hw'
    have u2 := unsignedVal_zeros (a :: w) f' k hw
    rw [List.cons_append] at u2
    simp only [List.cons_append]
    by_cases h45 : a = 45
    · subst h45; simp only [signedVal]; rw [u1]
    · by_cases h43 : a = 43
      · subst h43; simp only [signedVal]; rw [u1]
      · have e : ∀ r, signedVal (a :: r) = unsignedVal (a :: r) := by
          intro r
          rw [signedVal.eq_3] <;> intro r' h <;> simp_all
        rw [e, e]; exact u2.symm

/-- `12.500` has the value 25/2; trimmed it is `12.5`. -/
example : trimTrailingZeros (gs! "12.500") = gs! "12.5" ∧ padTrailingZeros (gs! "12.500") = gs! "12.5  " := by decide +kernel
example : trimTrailingZeros (gs! "-3.000") = gs! "-3.0" ∧ trimTrailingZeros (gs! "1200") = gs! "1200" := by decide +kernel
example := C50_value (gs! "-12") (gs! "500") (by decide) (by decide)
example : decimalVal (gs! "-12.500") = mkRat (-25) 2 := by decide +kernel

end Verif
