import Verif.Lemmas.Strconv

/-!
# Lemmas about integer tokens
-/

namespace Verif

theorem isBin_iff (c : UInt8) : isBin c = true ↔ digitValue c < 2 :=
  forall_uint8 (p := fun c => isBin c = true ↔ digitValue c < 2) (by decide +kernel) c
theorem isOct_iff (c : UInt8) : isOct c = true ↔ digitValue c < 8 :=
  forall_uint8 (p := fun c => isOct c = true ↔ digitValue c < 8) (by decide +kernel) c
theorem isDec_iff (c : UInt8) : isDec c = true ↔ digitValue c < 10 :=
  forall_uint8 (p := fun c => isDec c = true ↔ digitValue c < 10) (by decide +kernel) c
theorem isHex_iff (c : UInt8) : isHex c = true ↔ digitValue c < 16 :=
  forall_uint8 (p := fun c => isHex c = true ↔ digitValue c < 16) (by decide +kernel) c

theorem takeWhile_length_ge {p : UInt8 → Bool} {a b : GoStr} (h : ∀ c ∈ a, p c = true) : a.length ≤ ((a ++ b).takeWhile p).length := by
  induction a with
  | nil => simp
  | cons c a ih =>
    have hc := h c (by simp)
    have := ih (fun x hx => h x (by simp [hx]))
    simp only [List.cons_append, List.takeWhile_cons, hc, if_true, List.length_cons]
    omega

theorem scanSome_eq {p : UInt8 → Bool} {l a b : GoStr} (h : scanSome p l = some (a, b)) :
    l = a ++ b ∧ a ≠ [] ∧ (∀ c ∈ a, p c = true) ∧ a = l.takeWhile p := by
  unfold scanSome at h
  split at h
  · simp at h
  · rename_i hne
    simp only [Option.some.injEq, Prod.mk.injEq] at h
    obtain ⟨rfl, rfl⟩ := h
    exact ⟨(List.takeWhile_append_dropWhile).symm, hne, fun c hc => List.all_eq_true.1 (List.all_takeWhile (p := p) (l := l)) c hc, rfl⟩

theorem scanSome_ok {p : UInt8 → Bool} {a b : GoStr} (hne : a ≠ []) (h : ∀ c ∈ a, p c = true) :
    ∃ a' b', scanSome p (a ++ b) = some (a', b') ∧ a.length ≤ a'.length := by
  have := takeWhile_length_ge (b := b) h
  have hpos : 0 < a.length := List.length_pos_iff.2 hne
  refine ⟨(a ++ b).takeWhile p, (a ++ b).dropWhile p, ?_, this⟩
  unfold scanSome
  rw [if_neg]
  intro e
  rw [e] at this
  simp at this
  exact hne this

theorem scanPrefixed_eq {x y : UInt8} {p : UInt8 → Bool} {l tok rest : GoStr} (h : scanPrefixed x y p l = some (tok, rest)) :
    ∃ c ds, (c = x ∨ c = y) ∧ tok = 48 :: c :: ds ∧ l = tok ++ rest ∧ ds ≠ [] ∧ ∀ d ∈ ds, p d = true := by
  unfold scanPrefixed at h
  split at h
  · rename_i c cs
    split at h
    · rename_i hc
      cases hs : scanSome p cs with
      | none => rw [hs] at h; simp at h
      | some r =>
        obtain ⟨a, b⟩ := r
        rw [hs] at h
        simp only [Option.map_some, Option.some.injEq, Prod.mk.injEq] at h
        obtain ⟨rfl, rfl⟩ := h
        obtain ⟨e, h1, h2, _⟩ := scanSome_eq hs
        exact ⟨c, a, hc, rfl, by rw [e]; rfl, h1, h2⟩
    · simp at h
  · simp at h

theorem scanPrefixed_ok {x y c : UInt8} {p : UInt8 → Bool} {ds rest : GoStr} (hc : c = x ∨ c = y) (hne : ds ≠ []) (h : ∀ d ∈ ds, p d = true) :
    ∃ tok rest', scanPrefixed x y p (48 :: c :: ds ++ rest) = some (tok, rest') ∧ ds.length + 2 ≤ tok.length := by
  obtain ⟨a, b, e, hl⟩ := scanSome_ok (b := rest) hne h
  refine ⟨48 :: c :: a, b, ?_, by simp; omega⟩
  simp only [scanPrefixed, List.cons_append]
  rw [if_pos hc, e]; rfl

theorem scanPrefixed_none {x y : UInt8} {p : UInt8 → Bool} {c : UInt8} {cs : GoStr} (h1 : c ≠ x) (h2 : c ≠ y) :
    scanPrefixed x y p (48 :: c :: cs) = none := by
  simp [scanPrefixed, h1, h2]

theorem scanPrefixed_none' {x y : UInt8} {p : UInt8 → Bool} {c : UInt8} {cs : GoStr} (h : c ≠ 48) : scanPrefixed x y p (c :: cs) = none := by
  unfold scanPrefixed
  split
  · rename_i heq; simp at heq; exact absurd heq.1 h
  · rfl

theorem scanSigned_eq {minus : Bool} {l tok rest : GoStr} (h : scanSigned minus l = some (tok, rest)) :
    l = tok ++ rest ∧ ∃ ds, ds ≠ [] ∧ (∀ d ∈ ds, isDec d = true) ∧ (tok = ds ∨ tok = 43 :: ds ∨ (minus = true ∧ tok = 45 :: ds)) := by
  unfold scanSigned at h
  cases l with
  | nil => simp at h
  | cons c cs =>
    simp only at h
    split at h
    · rename_i hc
      cases hs : scanSome isDec cs with
      | none => rw [hs] at h; simp at h
      | some r =>
        obtain ⟨a, b⟩ := r
        rw [hs] at h
        simp only [Option.map_some, Option.some.injEq, Prod.mk.injEq] at h
        obtain ⟨rfl, rfl⟩ := h
        obtain ⟨e, h1, h2, _⟩ := scanSome_eq hs
        refine ⟨by rw [e]; rfl, a, h1, h2, ?_⟩
        rcases hc with rfl | ⟨hm, rfl⟩
        · exact .inr (.inl rfl)
        · exact .inr (.inr ⟨hm, rfl⟩)
    · obtain ⟨e, h1, h2, _⟩ := scanSome_eq h
      exact ⟨e, tok, h1, h2, .inl rfl⟩

theorem scanInt_token {minus : Bool} {l tok rest : GoStr} (h : scanInt minus l = some (tok, rest)) :
    l = tok ++ rest ∧ IntToken minus tok := by
  unfold scanInt at h
  split at h
  · rename_i r hr
    cases h
    obtain ⟨c, ds, hc, rfl, e, h1, h2⟩ := scanPrefixed_eq hr
    exact ⟨e, .bin hc ⟨h1, fun d hd => (isBin_iff d).1 (h2 d hd)⟩⟩
  · split at h
    · rename_i r hr
      cases h
      obtain ⟨c, ds, hc, rfl, e, h1, h2⟩ := scanPrefixed_eq hr
      exact ⟨e, .oct hc ⟨h1, fun d hd => (isOct_iff d).1 (h2 d hd)⟩⟩
    · split at h
      · rename_i r hr
        cases h
        obtain ⟨c, ds, hc, rfl, e, h1, h2⟩ := scanPrefixed_eq hr
        exact ⟨e, .hex hc ⟨h1, fun d hd => (isHex_iff d).1 (h2 d hd)⟩⟩
      · obtain ⟨e, ds, h1, h2, h3⟩ := scanSigned_eq h
        have hn : Numeral 10 ds := ⟨h1, fun d hd => (isDec_iff d).1 (h2 d hd)⟩
        rcases h3 with rfl | rfl | ⟨hm, rfl⟩
        · exact ⟨e, .dec hn⟩
        · exact ⟨e, .plus hn⟩
        · exact ⟨e, .minus hm hn⟩

theorem scanInt_longest {minus : Bool} {tok' rest' : GoStr} (h : IntToken minus tok') :
    ∃ tok rest, scanInt minus (tok' ++ rest') = some (tok, rest) ∧ tok'.length ≤ tok.length := by
  cases h with
  | @bin c ds hc hn =>
    obtain ⟨t, r, e, hl⟩ := scanPrefixed_ok (rest := rest') hc hn.1 (fun d hd => (isBin_iff d).2 (hn.2 d hd))
    exact ⟨t, r, by simp only [scanInt, e], by simp; omega⟩
  | @oct c ds hc hn =>
    obtain ⟨t, r, e, hl⟩ := scanPrefixed_ok (rest := rest') hc hn.1 (fun d hd => (isOct_iff d).2 (hn.2 d hd))
    refine ⟨t, r, ?_, by simp; omega⟩
    have e1 : scanPrefixed 98 66 isBin (48 :: c :: ds ++ rest') = none :=
      scanPrefixed_none (by rcases hc with rfl | rfl <;> decide) (by rcases hc with rfl | rfl <;> decide)
    simp only [scanInt, e1, e]
  | @hex c ds hc hn =>
    obtain ⟨t, r, e, hl⟩ := scanPrefixed_ok (rest := rest') hc hn.1 (fun d hd => (isHex_iff d).2 (hn.2 d hd))
    refine ⟨t, r, ?_, by simp; omega⟩
    have e1 : scanPrefixed 98 66 isBin (48 :: c :: ds ++ rest') = none :=
      scanPrefixed_none (by rcases hc with rfl | rfl <;> decide) (by rcases hc with rfl | rfl <;> decide)
    have e2 : scanPrefixed 111 79 isOct (48 :: c :: ds ++ rest') = none :=
      scanPrefixed_none (by rcases hc with rfl | rfl <;> decide) (by rcases hc with rfl | rfl <;> decide)
    simp only [scanInt, e1, e2, e]
  | plus hn =>
    rename_i ds
    obtain ⟨a, b, e, hl⟩ := scanSome_ok (b := rest') hn.1 (fun d hd => (isDec_iff d).2 (hn.2 d hd))
    refine ⟨43 :: a, b, ?_, by simp; omega⟩
    have hp : ∀ x y p, scanPrefixed x y p (43 :: ds ++ rest') = none := fun x y p => scanPrefixed_none' (by decide)
    simp only [scanInt, hp]
    simp [scanSigned, e]
  | minus hm hn =>
    rename_i ds
    obtain ⟨a, b, e, hl⟩ := scanSome_ok (b := rest') hn.1 (fun d hd => (isDec_iff d).2 (hn.2 d hd))
    refine ⟨45 :: a, b, ?_, by simp; omega⟩
    have hp : ∀ x y p, scanPrefixed x y p (45 :: ds ++ rest') = none := fun x y p => scanPrefixed_none' (by decide)
    simp only [scanInt, hp]
    simp [scanSigned, e, hm]
  | dec hn =>
    have hdec : ∀ d ∈ tok', isDec d = true := fun d hd => (isDec_iff d).2 (hn.2 d hd)
    obtain ⟨a, b, e, hl⟩ := scanSome_ok (b := rest') hn.1 hdec
    cases tok' with
    | nil => exact absurd rfl hn.1
    | cons c ds =>
      have hc := hdec c (by simp)
      have hs : scanSigned minus (c :: ds ++ rest') = some (a, b) := by
        have h1 : c ≠ 43 := by rintro rfl; simp [isDec] at hc
        have h2 : c ≠ 45 := by rintro rfl; simp [isDec] at hc
        simp only [scanSigned, List.cons_append, h1, h2, and_false, or_self, if_false]
        exact e
      have hpre : ∀ x y p tok rest, isDec x = false → isDec y = false →
          scanPrefixed x y p (c :: ds ++ rest') = some (tok, rest) → (c :: ds).length ≤ tok.length := by
        intro x y p tok rest hx hy h
        obtain ⟨c', ds', hc', rfl, e', _, _⟩ := scanPrefixed_eq h
        cases ds with
        | nil => simp
        | cons d ds =>
          simp only [List.cons_append, List.cons.injEq] at e'
          have : isDec d = false := by rw [e'.2.1]; rcases hc' with rfl | rfl <;> assumption
          rw [hdec d (by simp)] at this
          exact absurd this (by simp)
      unfold scanInt
      split
      · rename_i r hr
        exact ⟨r.1, r.2, rfl, hpre _ _ _ _ _ (by decide) (by decide) hr⟩
      · split
        · rename_i r hr
          exact ⟨r.1, r.2, rfl, hpre _ _ _ _ _ (by decide) (by decide) hr⟩
        · split
          · rename_i r hr
            exact ⟨r.1, r.2, rfl, hpre _ _ _ _ _ (by decide) (by decide) hr⟩
          · exact ⟨a, b, hs, hl⟩

theorem numeral_head {b : Nat} (hb : b ≤ 16) {ds : GoStr} (h : ∀ c ∈ ds, digitValue c < b) : ds.head? ≠ some 43 ∧ ds.head? ≠ some 45 := by
  cases ds with
  | nil => simp
  | cons c ds =>
    have hc := h c (by simp)
    constructor <;> simp <;> rintro rfl <;> simp [digitValue] at hc <;> omega

theorem IntKind.signed_facts (k : IntKind) (h : k.signed = true) :
    2 ≤ k.bits ∧ k.bits ≤ 64 ∧ k.lo = -((2 ^ (k.bits - 1) : Nat) : Int) ∧ k.hi = ((2 ^ (k.bits - 1) : Nat) : Int) - 1 := by
  revert h; cases k <;> decide

theorem IntKind.unsigned_facts (k : IntKind) (h : k.signed = false) :
    2 ≤ k.bits ∧ k.bits ≤ 64 ∧ k.lo = 0 ∧ k.hi = ((2 ^ k.bits : Nat) : Int) - 1 := by
  revert h; cases k <;> decide

theorem uintLit_prefixed {b : Nat} {c : UInt8} {ds : GoStr} {v : Nat} (h : UintLit (48 :: c :: ds) v)
    (hc : (c = 98 ∨ c = 66) ∧ b = 2 ∨ (c = 111 ∨ c = 79) ∧ b = 8 ∨ (c = 120 ∨ c = 88) ∧ b = 16) : v = numeralValue b ds := by
  have hbig : ∀ c : UInt8, (c = 98 ∨ c = 66 ∨ c = 111 ∨ c = 79 ∨ c = 120 ∨ c = 88) → 10 ≤ digitValue c := by
    intro c
    refine forall_uint8 (p := fun c => (c = 98 ∨ c = 66 ∨ c = 111 ∨ c = 79 ∨ c = 120 ∨ c = 88) → 10 ≤ digitValue c) ?_ c
    decide +kernel
  have hc10 : 10 ≤ digitValue c := hbig c (by rcases hc with ⟨h | h, _⟩ | ⟨h | h, _⟩ | ⟨h | h, _⟩ <;> subst h <;> simp)
  cases h with
  | bin h _ => rcases h with rfl | rfl <;> simp at hc <;> rw [hc]
  | oct h _ => rcases h with rfl | rfl <;> simp at hc <;> rw [hc]
  | hex h _ => rcases h with rfl | rfl <;> simp at hc <;> rw [hc]
  | zero h => have := h.2 c (by simp); omega
  | dec h _ => have := h.2 c (by simp); omega

theorem uintLit_zero {c : UInt8} {ds : GoStr} {v : Nat} (hc : digitValue c < 10) (h : UintLit (48 :: c :: ds) v) :
    Numeral 8 (c :: ds) ∧ v = numeralValue 8 (c :: ds) := by
  have hsmall : ∀ x : UInt8, (x = 98 ∨ x = 66 ∨ x = 111 ∨ x = 79 ∨ x = 120 ∨ x = 88) → c ≠ x := by
    intro x hx e
    subst e
    rcases hx with rfl | rfl | rfl | rfl | rfl | rfl <;> revert hc <;> decide
  cases h with
  | bin h _ => rcases h with h | h <;> exact absurd h (hsmall _ (by simp))
  | oct h _ => rcases h with h | h <;> exact absurd h (hsmall _ (by simp))
  | hex h _ => rcases h with h | h <;> exact absurd h (hsmall _ (by simp))
  | zero h => exact ⟨h, rfl⟩
  | dec _ h => rcases h with h | h <;> simp at h

theorem numeralValue_zero (base : Nat) (ds : GoStr) : numeralValue base (48 :: ds) = numeralValue base ds := by
  simp [numeralValue, digitValue]

theorem uintLit_dec {c : UInt8} {ds : GoStr} {v : Nat} (hc : c ≠ 48 ∨ ds = []) (h : UintLit (c :: ds) v) :
    Numeral 10 (c :: ds) ∧ v = numeralValue 10 (c :: ds) := by
  cases h with
  | bin _ h => rcases hc with hc | hc <;> simp at hc
  | oct _ h => rcases hc with hc | hc <;> simp at hc
  | hex _ h => rcases hc with hc | hc <;> simp at hc
  | zero h => rcases hc with hc | hc; exact absurd rfl hc; exact absurd hc h.1
  | dec h _ => exact ⟨h, rfl⟩

/-- The values of the tokens by form: what `parseInt` and `parseUint` compute. -/
theorem parse_unsigned {minus : Bool} {tok : GoStr} (ht : IntToken minus tok) (hplus : tok.head? ≠ some 43) (hminus : tok.head? ≠ some 45) :
    ∃ b ds, 2 ≤ b ∧ b ≤ 16 ∧ (ds.head? ≠ some 43 ∧ ds.head? ≠ some 45) ∧ (∀ v, UintLit tok v ↔ Numeral b ds ∧ v = numeralValue b ds) ∧
      (∀ bits, parseInt tok bits = strconvParseInt ds b bits) ∧ (∀ bits, parseUint tok bits = strconvParseUint ds b bits) := by
  cases ht with
  | @bin c ds hc hn =>
    refine ⟨2, ds, by omega, by omega, numeral_head (by omega) hn.2, fun v => ⟨fun h => ⟨hn, uintLit_prefixed h (.inl ⟨hc, rfl⟩)⟩, ?_⟩, ?_, ?_⟩
    · rintro ⟨_, rfl⟩; exact .bin hc hn
    · intro bits; simp only [parseInt]; rw [if_pos hc]
    · intro bits; simp only [parseUint]; rw [if_pos hc]
  | @oct c ds hc hn =>
    have hb : ¬ (c = 98 ∨ c = 66) := by rcases hc with rfl | rfl <;> decide
    refine ⟨8, ds, by omega, by omega, numeral_head (by omega) hn.2,
      fun v => ⟨fun h => ⟨hn, uintLit_prefixed h (.inr (.inl ⟨hc, rfl⟩))⟩, ?_⟩, ?_, ?_⟩
    · rintro ⟨_, rfl⟩; exact .oct hc hn
    · intro bits; simp only [parseInt]; rw [if_neg hb, if_pos hc]
    · intro bits; simp only [parseUint]; rw [if_neg hb, if_pos hc]
  | @hex c ds hc hn =>
    have hb : ¬ (c = 98 ∨ c = 66) := by rcases hc with rfl | rfl <;> decide
    have ho : ¬ (c = 111 ∨ c = 79) := by rcases hc with rfl | rfl <;> decide
    refine ⟨16, ds, by omega, by omega, numeral_head (by omega) hn.2,
      fun v => ⟨fun h => ⟨hn, uintLit_prefixed h (.inr (.inr ⟨hc, rfl⟩))⟩, ?_⟩, ?_, ?_⟩
    · rintro ⟨_, rfl⟩; exact .hex hc hn
    · intro bits; simp only [parseInt]; rw [if_neg hb, if_neg ho, if_pos hc]
    · intro bits; simp only [parseUint]; rw [if_neg hb, if_neg ho, if_pos hc]
  | plus => simp at hplus
  | minus h => simp at hminus
  | dec hn =>
    cases tok with
    | nil => exact absurd rfl hn.1
    | cons c ds =>
      by_cases hc : c = 48 ∧ ds ≠ []
      · obtain ⟨rfl, hne⟩ := hc
        cases ds with
        | nil => exact absurd rfl hne
        | cons c ds =>
          have hc10 := hn.2 c (by simp)
          have hsmall : ∀ x : UInt8, (x = 98 ∨ x = 66 ∨ x = 111 ∨ x = 79 ∨ x = 120 ∨ x = 88) → c ≠ x := by
            intro x hx e
            subst e
            rcases hx with rfl | rfl | rfl | rfl | rfl | rfl <;> revert hc10 <;> decide
          refine ⟨8, 48 :: c :: ds, by omega, by omega, by simp, fun v => ⟨fun h => ?_, ?_⟩, ?_, ?_⟩
          · obtain ⟨h1, h2⟩ := uintLit_zero hc10 h
            refine ⟨⟨by simp, ?_⟩, by rw [numeralValue_zero, h2]⟩
            intro x hx
            rcases List.mem_cons.1 hx with rfl | hx
            · decide
            · exact h1.2 x hx
          · rintro ⟨h, rfl⟩
            rw [numeralValue_zero]
            exact .zero ⟨by simp, fun x hx => h.2 x (List.mem_cons_of_mem _ hx)⟩
          · intro bits
            simp only [parseInt]
            rw [if_neg (by simp [hsmall]), if_neg (by simp [hsmall]), if_neg (by simp [hsmall])]
          · intro bits
            simp only [parseUint]
            rw [if_neg (by simp [hsmall]), if_neg (by simp [hsmall]), if_neg (by simp [hsmall])]
      · have hc' : c ≠ 48 ∨ ds = [] := by
          by_cases h : c = 48
          · right
            cases ds with
            | nil => rfl
            | cons => exact absurd ⟨h, by simp⟩ hc
          · exact .inl h
        refine ⟨10, c :: ds, by omega, by omega, numeral_head (by omega) hn.2, fun v => ⟨fun h => uintLit_dec hc' h, ?_⟩, ?_, ?_⟩
        · rintro ⟨h, rfl⟩; exact .dec h hc'
        · intro bits
          rcases hc' with h | rfl
          · cases ds <;> (rw [parseInt] <;> (intros; simp_all))
          · rw [parseInt] <;> (intros; simp_all)
        · intro bits
          rcases hc' with h | rfl
          · cases ds <;> (rw [parseUint] <;> (intros; simp_all))
          · rw [parseUint] <;> (intros; simp_all)

end Verif
