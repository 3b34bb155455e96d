import Verif.Props.C33

/-!
# C32 Integers printed in decimal are read back exactly
-/

namespace Verif

theorem digitValue_ofNat (d : Nat) (h : d < 10) : digitValue (UInt8.ofNat (48 + d)) = d := by
  have : ∀ d : Fin 10, digitValue (UInt8.ofNat (48 + d.val)) = d.val := by decide
  exact this ⟨d, h⟩

theorem numeralValue_append (base : Nat) (a : GoStr) (c : UInt8) : numeralValue base (a ++ [c]) = numeralValue base a * base + digitValue c := by
  simp [numeralValue, List.foldl_append]

theorem fmtNat_spec (n : Nat) : Numeral 10 (fmtNat n) ∧ numeralValue 10 (fmtNat n) = n ∧ (10 ≤ n → (fmtNat n).head? ≠ some 48) ∧
    (n < 10 → (fmtNat n).tail = []) := by
  fun_induction fmtNat n with
  | case1 n h =>
    refine ⟨⟨by simp, ?_⟩, ?_, by omega, by simp⟩
    · intro c hc
      simp only [List.mem_singleton] at hc
      subst hc
      rw [digitValue_ofNat n h]; exact h
    · have := digitValue_ofNat n h
      simp only [numeralValue, List.foldl_cons, List.foldl_nil]
      omega
  | case2 n h ih =>
    obtain ⟨h1, h2, h3, h4⟩ := ih
    have hd : n % 10 < 10 := Nat.mod_lt _ (by omega)
    refine ⟨⟨by simp, ?_⟩, ?_, ?_, by omega⟩
    · intro c hc
      rcases List.mem_append.1 hc with hc | hc
      · exact h1.2 c hc
      · simp only [List.mem_singleton] at hc
        subst hc
        rw [digitValue_ofNat _ hd]; exact hd
    · rw [numeralValue_append, h2, digitValue_ofNat _ hd]
      omega
    · intro _
      have hhead : (fmtNat (n / 10) ++ [UInt8.ofNat (48 + n % 10)]).head? = (fmtNat (n / 10)).head? := by
        cases hf : fmtNat (n / 10) with
        | nil => exact absurd hf h1.1
        | cons => rfl
      rw [hhead]
      by_cases hq : 10 ≤ n / 10
      · exact h3 hq
      · have hq' : n / 10 < 10 := by omega
        rw [fmtNat, if_pos hq']
        simp only [List.head?_cons, ne_eq, Option.some.injEq]
        intro e
        have := digitValue_ofNat _ hq'
        rw [e] at this
        have h0 : digitValue 48 = 0 := by decide
        omega

theorem fmtNat_lit (n : Nat) : UintLit (fmtNat n) n := by
  obtain ⟨h1, h2, h3, h4⟩ := fmtNat_spec n
  cases he : fmtNat n with
  | nil => exact absurd he h1.1
  | cons c ds =>
    rw [he] at h1 h2 h3 h4
    have : UintLit (c :: ds) (numeralValue 10 (c :: ds)) := by
      refine .dec h1 ?_
      by_cases hn : n < 10
      · exact .inr (h4 hn)
      · left
        have := h3 (by omega)
        simpa using this
    rw [h2] at this
    exact this

/-- The text after a printed number does not go on with a digit or a letter that would make it another number. -/
def NumberEnds (rest : GoStr) : Prop := ∀ c ∈ rest.head?, ¬ (48 ≤ c ∧ c ≤ 57) ∧ c ∉ (gs! "bBoOxX")

instance (rest : GoStr) : Decidable (NumberEnds rest) := by unfold NumberEnds; exact inferInstance

theorem numeral_longest {ds rest tok' rest' : GoStr} (h : Numeral 10 ds) (hrest : NumberEnds rest)
    (e : ds ++ rest = tok' ++ rest') {b : Nat} (hb : b ≤ 10) (h' : ∀ c ∈ tok', digitValue c < b) : tok'.length ≤ ds.length := by
  refine Nat.le_of_not_lt fun hlt => ?_
  rw [List.append_eq_append_iff] at e
  rcases e with ⟨a, rfl, e⟩ | ⟨a, rfl, _⟩
  · cases a with
    | nil => simp at hlt
    | cons c a =>
      have hc := h' c (by simp)
      have hr := (hrest c (by rw [e]; simp)).1
      have : isDec c = true := (isDec_iff c).2 (by omega)
      simp [isDec] at this
      exact hr this
  · simp at hlt; omega

theorem longest_dec {minus : Bool} {ds rest : GoStr} (h : Numeral 10 ds) (hrest : NumberEnds rest)
    (hz : ds.head? ≠ some 48 ∨ ds.tail = []) : LongestToken minus (ds ++ rest) ds rest := by
  refine ⟨rfl, .dec h, ?_⟩
  intro tok' rest' e ht
  have hsign : ∀ x : UInt8, x = 43 ∨ x = 45 → ∀ ds', tok' = x :: ds' → False := by
    intro x hx ds' he
    rw [he] at e
    cases ds with
    | nil => exact absurd rfl h.1
    | cons c ds =>
      simp only [List.cons_append, List.cons.injEq] at e
      have := h.2 c (by simp)
      rw [e.1] at this
      rcases hx with rfl | rfl <;> revert this <;> decide
  have hpre : ∀ c ds', c ∈ (gs! "bBoOxX") → tok' = 48 :: c :: ds' → False := by
    intro c ds' hc he
    rw [he] at e
    cases ds with
    | nil => exact absurd rfl h.1
    | cons d ds =>
      simp only [List.cons_append, List.cons.injEq] at e
      obtain ⟨rfl, e⟩ := e
      simp at hz
      subst hz
      simp only [List.nil_append] at e
      exact (hrest c (by rw [e]; simp)).2 hc
  cases ht with
  | bin hc _ => exact (hpre _ _ (by rcases hc with rfl | rfl <;> decide) rfl).elim
  | oct hc _ => exact (hpre _ _ (by rcases hc with rfl | rfl <;> decide) rfl).elim
  | hex hc _ => exact (hpre _ _ (by rcases hc with rfl | rfl <;> decide) rfl).elim
  | dec h' => exact numeral_longest h hrest e (Nat.le_refl _) h'.2
  | plus h' => exact (hsign _ (.inl rfl) _ rfl).elim
  | minus _ h' => exact (hsign _ (.inr rfl) _ rfl).elim

theorem longest_minus {ds rest : GoStr} (h : Numeral 10 ds) (hrest : NumberEnds rest) :
    LongestToken true (45 :: ds ++ rest) (45 :: ds) rest := by
  refine ⟨rfl, .minus rfl h, ?_⟩
  intro tok' rest' e ht
  cases ht with
  | bin hc _ => simp at e
  | oct hc _ => simp at e
  | hex hc _ => simp at e
  | plus h' => simp at e
  | minus _ h' =>
    simp only [List.cons_append, List.cons.injEq, true_and] at e
    have := numeral_longest h hrest e (Nat.le_refl _) h'.2
    simp; exact this
  | dec h' =>
    cases tok' with
    | nil => simp
    | cons c cs =>
      simp only [List.cons_append, List.cons.injEq] at e
      have := h'.2 c (by simp)
      rw [← e.1] at this
      exact absurd this (by decide)

theorem longest_fmtInt (k : IntKind) (v : Int) (rest : GoStr) (hrest : NumberEnds rest) (hv : k.signed = true ∨ 0 ≤ v) :
    LongestToken k.signed (fmtInt v ++ rest) (fmtInt v) rest ∧ IntLit (fmtInt v) v ∧ (0 ≤ v → UintLit (fmtInt v) v.toNat) := by
  obtain ⟨h1, h2, h3, h4⟩ := fmtNat_spec v.natAbs
  unfold fmtInt
  split
  · rename_i hneg
    have hk : k.signed = true := by rcases hv with h | h; exact h; omega
    rw [hk]
    refine ⟨longest_minus h1 hrest, ?_, by omega⟩
    have := IntLit.minus h1
    rw [h2] at this
    rwa [show -(v.natAbs : Int) = v by omega] at this
  · rename_i hpos
    have hl := fmtNat_lit v.natAbs
    refine ⟨longest_dec h1 hrest ?_, ?_, fun _ => ?_⟩
    · by_cases hn : v.natAbs < 10
      · exact .inr (h4 hn)
      · exact .inl (h3 (by omega))
    · have := IntLit.unsigned hl
      rwa [show (v.natAbs : Int) = v by omega] at this
    · have e : v.toNat = v.natAbs := by omega
      rw [e]; exact hl

/-- **C32** Every value of every integer type, printed in decimal and followed by a separator (or anything that does not continue the number),
is read back as the same value, and reading goes on after it. -/
theorem C32_roundTrip (k : IntKind) (v : Int) (hlo : k.lo ≤ v) (hhi : v ≤ k.hi) (rest : GoStr) (hrest : NumberEnds rest) :
    readInt k (fmtInt v ++ rest) = .ok (v, rest) := by
  cases hk : k.signed with
  | true =>
    obtain ⟨h1, h2, _⟩ := longest_fmtInt k v rest hrest (.inl hk)
    rw [hk] at h1
    exact (C33_signed k hk h1).1 v h2 hlo hhi
  | false =>
    have h0 : 0 ≤ v := by have := (k.unsigned_facts hk).2.2.1; omega
    obtain ⟨h1, _, h2⟩ := longest_fmtInt k v rest hrest (.inr h0)
    rw [hk] at h1
    have := (C33_unsigned_partial k hk h1).1 v.toNat (h2 h0) (by omega)
    rwa [show ((v.toNat : Nat) : Int) = v by omega] at this

theorem IntLit.unique_fmt {v w : Int} (h : IntLit (fmtInt v) w) : w = v := by
  obtain ⟨h1, h2, h3, h4⟩ := fmtNat_spec v.natAbs
  unfold fmtInt at h
  split at h
  · cases h with
    | unsigned h =>
      exfalso
      cases h with
      | dec h _ => have := h.2 45 (by simp); revert this; decide
    | minus h => rw [h2]; omega
  · have hhd := numeral_head (b := 10) (by omega) h1.2
    cases he : fmtNat v.natAbs with
    | nil => exact absurd he h1.1
    | cons c ds =>
      rw [he] at h h1 h2 h3 h4 hhd
      cases h with
      | unsigned h =>
        have := uintLit_dec (by
          by_cases hn : v.natAbs < 10
          · exact .inr (h4 hn)
          · exact .inl (by simpa using h3 (by omega))) h
        rw [this.2, h2]; omega
      | plus => simp at hhd
      | minus => simp at hhd

/-- **C32** Decimal text of a number outside the range of the type is rejected. -/
theorem C32_outOfRange (k : IntKind) (v : Int) (hv : v < k.lo ∨ k.hi < v) (rest : GoStr) (hrest : NumberEnds rest) :
    ∃ e, readInt k (fmtInt v ++ rest) = .err e := by
  cases hk : k.signed with
  | true =>
    obtain ⟨h1, _, _⟩ := longest_fmtInt k v rest hrest (.inl hk)
    rw [hk] at h1
    refine (C33_signed k hk h1).2 ?_
    rintro ⟨w, hw, h3, h4⟩
    have := hw.unique_fmt
    omega
  | false =>
    by_cases h0 : 0 ≤ v
    · obtain ⟨h1, _, h2⟩ := longest_fmtInt k v rest hrest (.inr h0)
      rw [hk] at h1
      refine (C33_unsigned_partial k hk h1).2 ?_
      rintro ⟨w, hw, h3⟩
      have := (IntLit.unsigned hw).unique_fmt
      have := (k.unsigned_facts hk).2.2.1
      omega
    · refine ⟨_, C33_noToken k _ ?_⟩
      rintro ⟨tok, rst, ⟨e, ht, _⟩⟩
      unfold fmtInt at e
      rw [if_pos (by omega)] at e
      rw [hk] at ht
      cases ht with
      | bin => simp at e
      | oct => simp at e
      | hex => simp at e
      | plus => simp at e
      | minus h => simp at h
      | dec h =>
        cases tok with
        | nil => exact h.1 rfl
        | cons c cs =>
          simp only [List.cons_append, List.cons.injEq] at e
          have := h.2 c (by simp)
          rw [← e.1] at this
          revert this; decide

example : fmtInt (-128) = gs! "-128" := by decide +kernel
example : IntKind.int8.lo ≤ -128 ∧ (-128 : Int) ≤ IntKind.int8.hi ∧ NumberEnds (gs! " 7") := by decide
example : readInt .uint64 (gs! "18446744073709551615 7") = .ok (18446744073709551615, gs! " 7") := by decide +kernel
example : readInt .uint64 (gs! "18446744073709551616 7") = .err .badRange := by decide +kernel
example : IntKind.uint64.hi < (18446744073709551616 : Int) := by decide
/-- The condition on what follows is needed: `0` followed by `x1` is another number. -/
example : readInt .int (fmtInt 0 ++ gs! "x1") = .ok (1, []) := by decide +kernel

end Verif
