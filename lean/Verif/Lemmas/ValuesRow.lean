import Verif.Lemmas.ValuesFloat
import Verif.Lemmas.ReadRow
import Verif.Props.C33

/-!
# Lemmas: booleans, slices, tables, times and whole rows in table text
-/

namespace Verif

/-! ## Integers -/

theorem readInt_iff (k : IntKind) (l : GoStr) (v : Int) (rest : GoStr) : readInt k l = .ok (v, rest) ↔ IntReads k l v rest := by
  constructor
  · intro h
    by_cases ht : ∃ tok rest, LongestToken k.signed l tok rest
    · obtain ⟨tok, r, ht⟩ := ht
      cases hk : k.signed with
      | true =>
        rw [hk] at ht
        obtain ⟨h1, h2⟩ := C33_signed k hk ht
        by_cases hv : ∃ v, IntLit tok v ∧ k.lo ≤ v ∧ v ≤ k.hi
        · obtain ⟨v', hl, hlo, hhi⟩ := hv
          have := h1 v' hl hlo hhi
          rw [h] at this
          simp only [Out.ok.injEq, Prod.mk.injEq] at this
          obtain ⟨rfl, rfl⟩ := this
          exact ⟨tok, by rw [hk]; exact ht, by rw [hk]; exact hl, hlo, hhi⟩
        · obtain ⟨e, he⟩ := h2 hv
          rw [h] at he; simp at he
      | false =>
        rw [hk] at ht
        obtain ⟨h1, h2⟩ := C33_unsigned_partial k hk ht
        by_cases hv : ∃ v : Nat, UintLit tok v ∧ (v : Int) ≤ k.hi
        · obtain ⟨v', hl, hhi⟩ := hv
          have := h1 v' hl hhi
          rw [h] at this
          simp only [Out.ok.injEq, Prod.mk.injEq] at this
          obtain ⟨rfl, rfl⟩ := this
          refine ⟨tok, by rw [hk]; exact ht, by rw [hk]; exact ⟨v', rfl, hl⟩, ?_, hhi⟩
          have := (k.unsigned_facts hk).2.2.1
          omega
        · obtain ⟨e, he⟩ := h2 hv
          rw [h] at he; simp at he
    · rw [C33_noToken k l ht] at h; simp at h
  · rintro ⟨tok, ht, hl, hlo, hhi⟩
    cases hk : k.signed with
    | true =>
      rw [hk] at ht
      simp only [hk, if_true] at hl
      exact (C33_signed k hk ht).1 v hl hlo hhi
    | false =>
      rw [hk] at ht
      simp only [hk, Bool.false_eq_true, if_false] at hl
      obtain ⟨n, rfl, hl⟩ := hl
      exact (C33_unsigned_partial k hk ht).1 n hl hhi

/-! ## Booleans -/

theorem isWordChar_iff (c : UInt8) : isWordChar c = true ↔ NameLetter c ∨ (48 ≤ c.toNat ∧ c.toNat ≤ 57) :=
  forall_uint8 (p := fun c => isWordChar c = true ↔ ((65 ≤ c.toNat ∧ c.toNat ≤ 90) ∨ (97 ≤ c.toNat ∧ c.toNat ≤ 122) ∨ c = 95) ∨ (48 ≤ c.toNat ∧ c.toNat ≤ 57))
    (by decide +kernel) c

theorem scanWord_iff (w l rest : GoStr) : scanWord w l = some rest ↔ l = w ++ rest ∧ ∀ c cs, rest = c :: cs → ¬ (NameLetter c ∨ (48 ≤ c.toNat ∧ c.toNat ≤ 57)) := by
  unfold scanWord
  constructor
  · intro h
    split at h
    · next hw =>
      have e : l = w ++ l.drop w.length := by
        have := (List.take_append_drop w.length l).symm
        rwa [hw] at this
      split at h
      · next hd =>
        simp only [Option.some.injEq] at h
        rw [hd, h] at e
        exact ⟨e, by rw [← h]; simp⟩
      · next c cs hd =>
        split at h
        · simp at h
        · next hc =>
          simp only [Option.some.injEq] at h
          rw [hd, h] at e
          refine ⟨e, fun c' cs' e' hn => ?_⟩
          rw [← h] at e'
          simp only [List.cons.injEq] at e'
          rw [← e'.1] at hn
          exact hc ((isWordChar_iff c).2 hn)
    · simp at h
  · rintro ⟨rfl, h⟩
    rw [if_pos (by simp), List.drop_left]
    cases rest with
    | nil => rfl
    | cons c cs =>
      have := h c cs rfl
      rw [← isWordChar_iff] at this
      simp only [if_neg this]

theorem readBool_iff (l : GoStr) (b : Bool) (rest : GoStr) : readBool l = .ok (b, rest) ↔
    l = (if b then gs! "true" else gs! "false") ++ rest ∧ ∀ c cs, rest = c :: cs → ¬ (NameLetter c ∨ (48 ≤ c.toNat ∧ c.toNat ≤ 57)) := by
  rw [← scanWord_iff]
  unfold readBool
  cases ht : scanWord (gs! "true") l with
  | some r =>
    have hf : scanWord (gs! "false") l = none := by
      obtain ⟨rfl, _⟩ := (scanWord_iff _ _ _).1 ht
      simp [scanWord]
    cases b with
    | true => simp [ht]
    | false => simp [hf]
  | none =>
    cases hf : scanWord (gs! "false") l with
    | some r => cases b <;> simp [ht, hf]
    | none => cases b <;> simp [ht, hf]

/-! ## Slices of bytes -/

theorem strconvParseUint_iff {base bits : Nat} (hb : 2 ≤ base) (hb' : base ≤ 16) (hbits : bits ≤ 64) (s : GoStr) (v : Nat) :
    strconvParseUint s base bits = .ok v ↔ Numeral base s ∧ v = numeralValue base s ∧ v < 2 ^ bits := by
  obtain ⟨h1, h2⟩ := strconvParseUint_spec hb hb' hbits s
  constructor
  · intro h
    by_cases hn : Numeral base s ∧ numeralValue base s < 2 ^ bits
    · have := h1 hn
      rw [h] at this
      simp only [Out.ok.injEq] at this
      exact ⟨hn.1, this, by rw [this]; exact hn.2⟩
    · obtain ⟨e, he⟩ := h2 hn
      rw [h] at he; simp at he
  · rintro ⟨hn, rfl, hlt⟩
    exact h1 ⟨hn, hlt⟩

theorem UintLit.token {s : GoStr} {v : Nat} (h : UintLit s v) : IntToken false s := by
  cases h with
  | bin hc h => exact .bin hc h
  | oct hc h => exact .oct hc h
  | hex hc h => exact .hex hc h
  | zero h =>
    refine .dec ⟨by simp, fun c hc => ?_⟩
    rcases List.mem_cons.1 hc with rfl | hc
    · decide
    · have := h.2 c hc; omega
  | dec h _ => exact .dec h

theorem UintLit.head {s : GoStr} {v : Nat} (h : UintLit s v) : s.head? ≠ some 43 ∧ s.head? ≠ some 45 := by
  cases h with
  | bin hc h => simp
  | oct hc h => simp
  | hex hc h => simp
  | zero h => simp
  | dec h _ => exact numeral_head (b := 10) (by omega) h.2

theorem parseUint_iff {bits : Nat} (hbits : bits ≤ 64) (s : GoStr) (v : Nat) : parseUint s bits = .ok v ↔ UintLit s v ∧ v < 2 ^ bits := by
  constructor
  · intro h
    match s, h with
    | [], h => simp [parseUint] at h
    | [c], h =>
      have h : strconvParseUint [c] 10 bits = .ok v := by
        unfold parseUint at h
        split at h
        · next heq => simp at heq
        · next heq => simp at heq
        · exact h
      obtain ⟨hn, rfl, hlt⟩ := (strconvParseUint_iff (by omega) (by omega) hbits _ _).1 h
      exact ⟨.dec hn (.inr rfl), hlt⟩
    | c :: d :: cs, h =>
      by_cases hc : c = 48
      · subst hc
        simp only [parseUint] at h
        split at h
        · next hd =>
          obtain ⟨hn, rfl, hlt⟩ := (strconvParseUint_iff (by omega) (by omega) hbits _ _).1 h
          exact ⟨.bin hd hn, hlt⟩
        · split at h
          · next hd =>
            obtain ⟨hn, rfl, hlt⟩ := (strconvParseUint_iff (by omega) (by omega) hbits _ _).1 h
            exact ⟨.oct hd hn, hlt⟩
          · split at h
            · next hd =>
              obtain ⟨hn, rfl, hlt⟩ := (strconvParseUint_iff (by omega) (by omega) hbits _ _).1 h
              exact ⟨.hex hd hn, hlt⟩
            · obtain ⟨hn, rfl, hlt⟩ := (strconvParseUint_iff (by omega) (by omega) hbits _ _).1 h
              have e : numeralValue 8 (48 :: d :: cs) = numeralValue 8 (d :: cs) := by
                simp [numeralValue, show digitValue 48 = 0 from by decide]
              rw [e] at hlt ⊢
              exact ⟨.zero ⟨by simp, fun x hx => hn.2 x (by simp only [List.mem_cons] at hx ⊢; exact .inr hx)⟩, hlt⟩
      · have h : strconvParseUint (c :: d :: cs) 10 bits = .ok v := by
          unfold parseUint at h
          split at h
          · next heq => simp at heq
          · next heq => simp at heq; exact absurd heq.1 hc
          · exact h
        obtain ⟨hn, rfl, hlt⟩ := (strconvParseUint_iff (by omega) (by omega) hbits _ _).1 h
        exact ⟨.dec hn (.inl hc), hlt⟩
  · rintro ⟨h, hlt⟩
    obtain ⟨b, ds, hb, hb', _, hl, _, hp⟩ := parse_unsigned h.token h.head.1 h.head.2
    rw [hp]
    obtain ⟨hn, rfl⟩ := (hl v).1 h
    exact (strconvParseUint_iff hb hb' hbits _ _).2 ⟨hn, rfl, hlt⟩

theorem digit_bytes (c : UInt8) : (digitValue c < 16 ∨ c = 98 ∨ c = 66 ∨ c = 111 ∨ c = 79 ∨ c = 120 ∨ c = 88) → c ≠ 93 ∧ isWhite c = false ∧ c ≠ 10 :=
  forall_uint8 (p := fun c => (digitValue c < 16 ∨ c = 98 ∨ c = 66 ∨ c = 111 ∨ c = 79 ∨ c = 120 ∨ c = 88) → c ≠ 93 ∧ isWhite c = false ∧ c ≠ 10) (by decide +kernel) c

theorem UintLit.bytes {s : GoStr} {v : Nat} (h : UintLit s v) : s ≠ [] ∧ ∀ c ∈ s, c ≠ 93 ∧ isWhite c = false ∧ c ≠ 10 := by
  have num : ∀ {b : Nat} {ds : GoStr}, b ≤ 16 → Numeral b ds → ∀ c ∈ ds, c ≠ 93 ∧ isWhite c = false ∧ c ≠ 10 := by
    intro b ds hb h c hc
    have := h.2 c hc
    exact digit_bytes c (.inl (by omega))
  have zero : (48 : UInt8) ≠ 93 ∧ isWhite 48 = false ∧ (48 : UInt8) ≠ 10 := by decide
  cases h with
  | bin hc h =>
    refine ⟨by simp, fun c hm => ?_⟩
    rcases List.mem_cons.1 hm with rfl | hm
    · exact zero
    rcases List.mem_cons.1 hm with rfl | hm
    · rcases hc with rfl | rfl <;> decide
    · exact num (by omega) h c hm
  | oct hc h =>
    refine ⟨by simp, fun c hm => ?_⟩
    rcases List.mem_cons.1 hm with rfl | hm
    · exact zero
    rcases List.mem_cons.1 hm with rfl | hm
    · rcases hc with rfl | rfl <;> decide
    · exact num (by omega) h c hm
  | hex hc h =>
    refine ⟨by simp, fun c hm => ?_⟩
    rcases List.mem_cons.1 hm with rfl | hm
    · exact zero
    rcases List.mem_cons.1 hm with rfl | hm
    · rcases hc with rfl | rfl <;> decide
    · exact num (by omega) h c hm
  | zero h =>
    refine ⟨by simp, fun c hm => ?_⟩
    rcases List.mem_cons.1 hm with rfl | hm
    · exact zero
    · exact num (by omega) h c hm
  | dec h _ => exact ⟨by simp, fun c hm => num (by omega) h c hm⟩

theorem isWhite_iff (c : UInt8) : isWhite c = true ↔ SliceBlank c :=
  forall_uint8 (p := fun c => isWhite c = true ↔ (c = 9 ∨ c = 10 ∨ c = 12 ∨ c = 13 ∨ c = 32)) (by decide +kernel) c

theorem splitEach_plain {s : GoStr} (h : ∀ c ∈ s, isWhite c = false) : splitEach s = [s] := by
  induction s with
  | nil => rfl
  | cons c s ih => simp [splitEach, h c (by simp), ih fun x hx => h x (by simp [hx])]

theorem splitEach_cons {s : GoStr} (h : ∀ c ∈ s, isWhite c = false) {c : UInt8} (hc : isWhite c = true) (more : GoStr) :
    splitEach (s ++ c :: more) = s :: splitEach more := by
  induction s with
  | nil => simp [splitEach, hc]
  | cons x s ih => simp [splitEach, h x (by simp), ih fun y hy => h y (by simp [hy])]

theorem parseBytes_of {content : GoStr} {vs : List UInt8} (h : BytesText content vs) : parseBytes (splitEach content) = .ok vs := by
  induction h with
  | one hl hv =>
    rw [splitEach_plain fun c hc => (hl.bytes.2 c hc).2.1]
    simp only [parseBytes, (parseUint_iff (bits := 8) (by omega) _ _).2 ⟨hl, by omega⟩, Out.bind]
  | cons hl hv hc _ ih =>
    rw [splitEach_cons (fun c hc => (hl.bytes.2 c hc).2.1) ((isWhite_iff _).2 hc)]
    simp only [parseBytes, (parseUint_iff (bits := 8) (by omega) _ _).2 ⟨hl, by omega⟩, Out.bind, ih]

theorem white_split (l : GoStr) : (∀ c ∈ l, isWhite c = false) ∨ ∃ s c more, l = s ++ c :: more ∧ (∀ c ∈ s, isWhite c = false) ∧ isWhite c = true := by
  induction l with
  | nil => exact .inl (by simp)
  | cons c l ih =>
    by_cases hc : isWhite c = true
    · exact .inr ⟨[], c, l, rfl, by simp, hc⟩
    · simp only [Bool.not_eq_true] at hc
      rcases ih with ih | ⟨s, d, more, rfl, h1, h2⟩
      · refine .inl fun x hx => ?_
        rcases List.mem_cons.1 hx with rfl | hx
        · exact hc
        · exact ih x hx
      · refine .inr ⟨c :: s, d, more, rfl, fun x hx => ?_, h2⟩
        rcases List.mem_cons.1 hx with rfl | hx
        · exact hc
        · exact h1 x hx

theorem parseBytes_inv (k : Nat) (content : GoStr) (hk : content.length ≤ k) (vs : List UInt8) (h : parseBytes (splitEach content) = .ok vs) : BytesText content vs := by
  induction k generalizing content vs with
  | zero =>
    have : content = [] := List.eq_nil_of_length_eq_zero (by omega)
    subst this
    simp [splitEach, parseBytes, parseUint, Out.bind] at h
  | succ k ih =>
    rcases white_split content with hw | ⟨s, c, more, rfl, hs, hc⟩
    · rw [splitEach_plain hw] at h
      simp only [parseBytes] at h
      obtain ⟨v, hp, h⟩ := Out.bind_ok h
      simp only [Out.bind, Out.ok.injEq] at h
      subst h
      obtain ⟨hl, hv⟩ := (parseUint_iff (by omega) _ _).1 hp
      exact .one hl (by omega)
    · rw [splitEach_cons hs hc] at h
      simp only [parseBytes] at h
      obtain ⟨v, hp, h⟩ := Out.bind_ok h
      obtain ⟨vs', hp', h⟩ := Out.bind_ok h
      simp only [Out.ok.injEq] at h
      subst h
      obtain ⟨hl, hv⟩ := (parseUint_iff (by omega) _ _).1 hp
      exact .cons hl (by omega) ((isWhite_iff c).1 hc) (ih more (by simp at hk; omega) vs' hp')

theorem BytesText.bytes {content : GoStr} {vs : List UInt8} (h : BytesText content vs) : content ≠ [] ∧ 93 ∉ content := by
  induction h with
  | one hl _ => exact ⟨hl.bytes.1, fun hm => (hl.bytes.2 _ hm).1 rfl⟩
  | cons hl _ hc _ ih =>
    refine ⟨by simp, fun hm => ?_⟩
    rcases List.mem_append.1 hm with hm | hm
    · exact (hl.bytes.2 _ hm).1 rfl
    · rcases List.mem_cons.1 hm with rfl | hm
      · revert hc; unfold SliceBlank; decide
      · exact ih.2 hm

theorem until_bracket {s : GoStr} (h : (93 : UInt8) ∉ s) (rest : GoStr) :
    (s ++ 93 :: rest).takeWhile (fun c => decide (c ≠ 93)) = s ∧ (s ++ 93 :: rest).dropWhile (fun c => decide (c ≠ 93)) = 93 :: rest :=
  takeWhile_all (fun c hc => by simp only [decide_eq_true_eq]; rintro rfl; exact h hc) (fun c cs e => by
    simp only [List.cons.injEq] at e
    simp [← e.1])

theorem readBytes_iff (l : GoStr) (vs : List UInt8) (rest : GoStr) : readBytes l = .ok (vs, rest) ↔
    (l = gs! "[]" ++ rest ∧ vs = []) ∨ ∃ content, l = 91 :: content ++ 93 :: rest ∧ BytesText content vs := by
  constructor
  · intro h
    unfold readBytes at h
    split at h
    · next cs =>
      simp only at h
      split at h
      · simp at h
      · next x r hd =>
        have hx : x = 93 := by
          have := List.head?_dropWhile_not (p := fun c : UInt8 => decide (c ≠ 93)) cs
          rw [hd] at this
          simpa using this
        subst hx
        have hcs := (List.takeWhile_append_dropWhile (p := fun c : UInt8 => decide (c ≠ 93)) (l := cs))
        rw [hd] at hcs
        split at h
        · next he =>
          simp only [Out.ok.injEq, Prod.mk.injEq] at h
          obtain ⟨rfl, rfl⟩ := h
          rw [List.eq_nil_of_length_eq_zero he] at hcs
          exact .inl ⟨by rw [← hcs]; rfl, rfl⟩
        · obtain ⟨v, hp, h⟩ := Out.bind_ok h
          simp only [Out.ok.injEq, Prod.mk.injEq] at h
          obtain ⟨rfl, rfl⟩ := h
          exact .inr ⟨_, by rw [List.cons_append, hcs], parseBytes_inv _ _ (Nat.le_refl _) _ hp⟩
    · simp at h
  · rintro (⟨rfl, rfl⟩ | ⟨content, rfl, h⟩)
    · simp [readBytes]
    · have hb := until_bracket h.bytes.2 rest
      have hlen : content.length ≠ 0 := fun e => h.bytes.1 (List.eq_nil_of_length_eq_zero e)
      simp only [List.cons_append, readBytes, hb.1, hb.2, if_neg hlen, parseBytes_of h, Out.bind]

/-! ## Tables -/

theorem isNameStart_iff (c : UInt8) : isNameStart c = true ↔ NameLetter c :=
  forall_uint8 (p := fun c => isNameStart c = true ↔ ((65 ≤ c.toNat ∧ c.toNat ≤ 90) ∨ (97 ≤ c.toNat ∧ c.toNat ≤ 122) ∨ c = 95)) (by decide +kernel) c

theorem isNameChar_iff (c : UInt8) : isNameChar c = true ↔ NameLetter c ∨ (48 ≤ c.toNat ∧ c.toNat ≤ 57) :=
  forall_uint8 (p := fun c => isNameChar c = true ↔ ((65 ≤ c.toNat ∧ c.toNat ≤ 90) ∨ (97 ≤ c.toNat ∧ c.toNat ≤ 122) ∨ c = 95) ∨ (48 ≤ c.toNat ∧ c.toNat ≤ 57))
    (by decide +kernel) c

theorem scanTableName_iff (l n rest : GoStr) : scanTableName l = some (n, rest) ↔ l = 91 :: n ++ 93 :: rest ∧ PlainName n := by
  constructor
  · intro h
    unfold scanTableName at h
    split at h
    · next cs =>
      split at h
      · next n' r hs =>
        simp only [Option.some.injEq, Prod.mk.injEq] at h
        obtain ⟨rfl, rfl⟩ := h
        unfold scanName at hs
        split at hs
        · next c cs =>
          split at hs
          · next hc =>
            simp only [Option.some.injEq, Prod.mk.injEq] at hs
            obtain ⟨rfl, hr⟩ := hs
            have e := (List.takeWhile_append_dropWhile (p := isNameChar) (l := cs)).symm
            rw [hr] at e
            refine ⟨by simp only [List.cons_append]; rw [← e], ⟨c, _, rfl, (isNameStart_iff c).1 hc⟩, fun x hx => ?_⟩
            rcases List.mem_cons.1 hx with rfl | hx
            · exact .inl ((isNameStart_iff _).1 hc)
            · exact (isNameChar_iff x).1 (List.all_eq_true.1 (List.all_takeWhile (p := isNameChar) (l := cs)) x hx)
          · simp at hs
        · simp at hs
      · simp at h
    · simp at h
  · rintro ⟨rfl, ⟨c, cs, rfl, hc⟩, hall⟩
    have hw := takeWhile_all (p := isNameChar) (a := cs) (b := 93 :: rest) (fun x hx => (isNameChar_iff x).2 (hall x (by simp [hx]))) (fun x xs e => by
      simp only [List.cons.injEq] at e
      rw [← e.1]; decide)
    simp only [List.cons_append, scanTableName, scanName, (isNameStart_iff c).2 hc, if_true, hw.1, hw.2]

theorem PlainName.valid {n : GoStr} (h : PlainName n) : isValidName n = true := by
  obtain ⟨⟨c, cs, rfl, hc⟩, hall⟩ := h
  have h1 : ∀ c : UInt8, NameLetter c → (isLetterByte c || c = 95) = true := fun c =>
    forall_uint8 (p := fun c => ((65 ≤ c.toNat ∧ c.toNat ≤ 90) ∨ (97 ≤ c.toNat ∧ c.toNat ≤ 122) ∨ c = 95) → (isLetterByte c || c = 95) = true) (by decide +kernel) c
  have h2 : ∀ c : UInt8, (48 ≤ c.toNat ∧ c.toNat ≤ 57) → isNumberByte c = true := fun c =>
    forall_uint8 (p := fun c => (48 ≤ c.toNat ∧ c.toNat ≤ 57) → isNumberByte c = true) (by decide +kernel) c
  simp only [isValidName, h1 c hc, Bool.true_and, List.all_eq_true]
  intro x hx
  rcases hall x (by simp [hx]) with h | h
  · rw [h1 x h]; rfl
  · rw [h2 x h]; simp

theorem readTable_iff (l : GoStr) (t : Table Nat) (rest : GoStr) : readTable l = .ok (t, rest) ↔
    (l = gs! "[]" ++ rest ∧ t = newNilTable) ∨
    ∃ n, l = 91 :: n ++ 93 :: rest ∧ PlainName n ∧ ColType.ofName? n = none ∧ t = { newNilTable with name := n, isNilTable := false } := by
  have hempty : ∀ rest : GoStr, scanTableName (91 :: 93 :: rest) = none := by
    intro rest
    have : isNameStart 93 = false := by decide
    simp [scanTableName, scanName, this]
  unfold readTable
  cases hs : scanTableName l with
  | none =>
    have hno : ∀ n rest, l = 91 :: n ++ 93 :: rest → ¬ PlainName n := by
      intro n rest e h
      rw [(scanTableName_iff _ _ _).2 ⟨e, h⟩] at hs
      simp at hs
    simp only
    constructor
    · intro h
      split at h
      · simp only [Out.ok.injEq, Prod.mk.injEq] at h
        obtain ⟨rfl, rfl⟩ := h
        exact .inl ⟨rfl, rfl⟩
      · simp at h
    · rintro (⟨rfl, rfl⟩ | ⟨n, e, h, _⟩)
      · rfl
      · exact absurd h (hno n rest e)
  | some x =>
    obtain ⟨n, r⟩ := x
    obtain ⟨e, hn⟩ := (scanTableName_iff _ _ _).1 hs
    have hv := hn.valid
    have hlen : ¬ n.length < 1 := by
      obtain ⟨⟨c, cs, rfl, _⟩, _⟩ := hn
      simp
    simp only
    have hnew : (Table.newTable n : Out (Table Nat)) = if ColType.ofName? n = none then .ok { newNilTable with name := n, isNilTable := false } else .err .badTableName := by
      unfold Table.newTable Table.setName isValidTableName
      rw [if_neg hlen, hv]
      cases ColType.ofName? n <;> simp
    rw [hnew]
    constructor
    · intro h
      split at h
      · next t' ht =>
        simp only [Out.ok.injEq, Prod.mk.injEq] at h
        obtain ⟨rfl, rfl⟩ := h
        split at ht
        · next ho =>
          simp only [Out.ok.injEq] at ht
          exact .inr ⟨n, e, hn, ho, ht.symm⟩
        · simp at ht
      · simp at h
      · simp at h
    · rintro (⟨rfl, rfl⟩ | ⟨n', e', hn', ho, rfl⟩)
      · have := hempty rest
        rw [show (91 :: 93 :: rest : GoStr) = gs! "[]" ++ rest from rfl, hs] at this
        simp at this
      · have := (scanTableName_iff _ _ _).2 ⟨e', hn'⟩
        rw [hs] at this
        simp only [Option.some.injEq, Prod.mk.injEq] at this
        obtain ⟨rfl, rfl⟩ := this
        rw [if_pos ho]

/-! ## Times -/

/-- The class of characters of a pattern. -/
def patternClass (p : UInt8) : UInt8 → Bool := if p = 100 then isDec else fun c => decide (c = p)

theorem scanClasses_eq {ps : List (UInt8 → Bool)} {l a b : GoStr} (h : scanClasses ps l = some (a, b)) :
    l = a ++ b ∧ ps.length = a.length ∧ ∀ pc ∈ ps.zip a, pc.1 pc.2 = true := by
  induction ps generalizing l a with
  | nil =>
    simp only [scanClasses, Option.some.injEq, Prod.mk.injEq] at h
    obtain ⟨rfl, rfl⟩ := h
    simp
  | cons p ps ih =>
    cases l with
    | nil => simp [scanClasses] at h
    | cons c cs =>
      rw [scanClasses] at h
      split at h
      · next hc =>
        simp only [Option.map_eq_some_iff, Prod.mk.injEq, Prod.exists] at h
        obtain ⟨a', b', hs, rfl, rfl⟩ := h
        obtain ⟨e, hl, hz⟩ := ih hs
        refine ⟨by rw [e]; rfl, by simp [hl], ?_⟩
        rintro pc hpc
        simp only [List.zip_cons_cons, List.mem_cons] at hpc
        rcases hpc with rfl | hpc
        · exact hc
        · exact hz pc hpc
      · simp at h

theorem scanClasses_of {ps : List (UInt8 → Bool)} {a : GoStr} (b : GoStr) (hl : ps.length = a.length) (hz : ∀ pc ∈ ps.zip a, pc.1 pc.2 = true) :
    scanClasses ps (a ++ b) = some (a, b) := by
  induction ps generalizing a with
  | nil =>
    have : a = [] := List.eq_nil_of_length_eq_zero (by simpa using hl.symm)
    subst this
    rfl
  | cons p ps ih =>
    cases a with
    | nil => simp at hl
    | cons c cs =>
      have hc := hz (p, c) (by simp)
      have := ih (a := cs) (by simpa using hl) (fun pc hpc => hz pc (by simp [hpc]))
      simp only [List.cons_append, scanClasses, this, Option.map_some]
      exact if_pos hc

theorem scanClasses_iff (ps : List (UInt8 → Bool)) (l a b : GoStr) : scanClasses ps l = some (a, b) ↔
    l = a ++ b ∧ ps.length = a.length ∧ ∀ pc ∈ ps.zip a, pc.1 pc.2 = true :=
  ⟨scanClasses_eq, fun ⟨e, h1, h2⟩ => by rw [e]; exact scanClasses_of b h1 h2⟩

theorem patternClass_iff (p c : UInt8) : patternClass p c = true ↔ if p = 100 then digitValue c < 10 else c = p := by
  unfold patternClass
  split
  · exact isDec_iff c
  · simp

theorem scanPattern_iff (pattern l a b : GoStr) : scanClasses (pattern.map patternClass) l = some (a, b) ↔ l = a ++ b ∧ LooksLike pattern a := by
  rw [scanClasses_iff, LooksLike, List.length_map]
  refine and_congr_right fun _ => and_congr_right fun _ => ?_
  rw [List.zip_map_left]
  constructor
  · intro h pc hpc
    exact (patternClass_iff _ _).1 (h (patternClass pc.1, pc.2) (List.mem_map.2 ⟨pc, hpc, rfl⟩))
  · intro h pc hpc
    obtain ⟨qc, hqc, rfl⟩ := List.mem_map.1 hpc
    exact (patternClass_iff _ _).2 (h qc hqc)

theorem timeClasses_eq : timeClasses = (gs! "dddd-dd-ddTdd:dd:dd").map patternClass := by
  simp [timeClasses, patternClass]

theorem fracClasses_eq : ((fun c : UInt8 => decide (c = 46)) :: List.replicate 9 isDec) = (gs! ".ddddddddd").map patternClass := by
  simp [patternClass, List.replicate]

/-- The zone of a time. -/
def ZoneText (z : GoStr) : Prop := z = gs! "Z" ∨ LooksLike (gs! "+dd:dd") z ∨ LooksLike (gs! "-dd:dd") z

theorem scanZone_iff (l z rest : GoStr) : scanZone l = some (z, rest) ↔ l = z ++ rest ∧ ZoneText z := by
  have hplus : ∀ z, LooksLike (gs! "+dd:dd") z ∨ LooksLike (gs! "-dd:dd") z ↔
      ([(fun c : UInt8 => c = 43 || c = 45), isDec, isDec, (fun c => decide (c = 58)), isDec, isDec] : List (UInt8 → Bool)).length = z.length ∧
      ∀ pc ∈ ([(fun c : UInt8 => c = 43 || c = 45), isDec, isDec, (fun c => decide (c = 58)), isDec, isDec] : List (UInt8 → Bool)).zip z, pc.1 pc.2 = true := by
    intro z
    match z with
    | [a, b, c, d, e, f] =>
      simp [LooksLike, isDec_iff]
      grind
    | [] => simp [LooksLike]
    | [_] => simp [LooksLike]
    | [_, _] => simp [LooksLike]
    | [_, _, _] => simp [LooksLike]
    | [_, _, _, _] => simp [LooksLike]
    | [_, _, _, _, _] => simp [LooksLike]
    | _ :: _ :: _ :: _ :: _ :: _ :: _ :: _ => simp [LooksLike]
  have hclass := scanClasses_iff [(fun c : UInt8 => c = 43 || c = 45), isDec, isDec, (fun c => decide (c = 58)), isDec, isDec] l z rest
  unfold scanZone ZoneText
  rw [hplus]
  split
  · next r =>
    constructor
    · intro h
      simp only [Option.some.injEq, Prod.mk.injEq] at h
      obtain ⟨rfl, rfl⟩ := h
      exact ⟨rfl, .inl rfl⟩
    · rintro ⟨e, rfl | h⟩
      · simp at e; rw [e]
      · have h := hclass.2 ⟨e, h⟩
        simp [scanClasses] at h
  · next hno =>
    rw [hclass]
    constructor
    · rintro ⟨e, h⟩
      exact ⟨e, .inr h⟩
    · rintro ⟨e, rfl | h⟩
      · exact absurd e (hno rest)
      · exact ⟨e, h⟩

theorem ZoneText.head {z : GoStr} (h : ZoneText z) : ∃ c cs, z = c :: cs ∧ c ≠ 46 := by
  rcases h with rfl | h | h
  · exact ⟨90, [], rfl, by decide⟩
  · match z, h with
    | c :: cs, h =>
      have := h.2 (43, c) (by simp)
      simp at this
      exact ⟨c, cs, rfl, by rw [this]; decide⟩
    | [], h => simp [LooksLike] at h
  · match z, h with
    | c :: cs, h =>
      have := h.2 (45, c) (by simp)
      simp at this
      exact ⟨c, cs, rfl, by rw [this]; decide⟩
    | [], h => simp [LooksLike] at h

theorem scanTimeHere_iff (l tok rest : GoStr) : scanTimeHere l = some (tok, rest) ↔ l = tok ++ rest ∧ TimeText tok := by
  constructor
  · intro h
    unfold scanTimeHere at h
    rw [timeClasses_eq, fracClasses_eq] at h
    split at h
    · simp at h
    · next a r ha =>
      obtain ⟨rfl, hla⟩ := (scanPattern_iff _ _ _ _).1 ha
      simp only at h
      split at h
      · next x hx =>
        simp only [Option.some.injEq] at h
        subst h
        split at hx
        · next f r' hf =>
          obtain ⟨rfl, hlf⟩ := (scanPattern_iff _ _ _ _).1 hf
          simp only [Option.map_eq_some_iff, Prod.mk.injEq, Prod.exists] at hx
          obtain ⟨z, rest', hz, rfl, rfl⟩ := hx
          obtain ⟨rfl, hlz⟩ := (scanZone_iff _ _ _).1 hz
          exact ⟨by simp, a, f, z, rfl, hla, .inr hlf, hlz⟩
        · simp at hx
      · simp only [Option.map_eq_some_iff, Prod.mk.injEq, Prod.exists] at h
        obtain ⟨z, rest', hz, rfl, rfl⟩ := h
        obtain ⟨rfl, hlz⟩ := (scanZone_iff _ _ _).1 hz
        exact ⟨by simp, a, [], z, by simp, hla, .inl rfl, hlz⟩
  · rintro ⟨rfl, a, f, z, rfl, hla, hlf, hlz⟩
    have hz : scanZone (z ++ rest) = some (z, rest) := (scanZone_iff _ _ _).2 ⟨rfl, hlz⟩
    unfold scanTimeHere
    rw [timeClasses_eq, fracClasses_eq]
    rcases hlf with rfl | hlf
    · have ha := (scanPattern_iff (gs! "dddd-dd-ddTdd:dd:dd") (a ++ (z ++ rest)) a (z ++ rest)).2 ⟨rfl, hla⟩
      have hf : scanClasses ((gs! ".ddddddddd").map patternClass) (z ++ rest) = none := by
        obtain ⟨c, cs, rfl, hc⟩ := ZoneText.head hlz
        simp [scanClasses, patternClass, hc]
      simp only [List.append_nil, List.append_assoc, ha, hf, hz, Option.map_some]
    · have ha := (scanPattern_iff (gs! "dddd-dd-ddTdd:dd:dd") (a ++ (f ++ (z ++ rest))) a (f ++ (z ++ rest))).2 ⟨rfl, hla⟩
      have hf := (scanPattern_iff (gs! ".ddddddddd") (f ++ (z ++ rest)) f (z ++ rest)).2 ⟨rfl, hlf⟩
      simp only [List.append_assoc, ha, hf, hz, Option.map_some]

theorem TimeText.ne_nil {tok : GoStr} (h : TimeText tok) : tok ≠ [] := by
  obtain ⟨a, f, z, rfl, h, _⟩ := h
  have := h.1
  intro e
  simp only [List.append_eq_nil_iff] at e
  rw [e.1.1] at this
  simp at this

theorem scanTime_iff (l tok rest : GoStr) : scanTime l = some (tok, rest) ↔ FirstTime l tok rest := by
  induction l with
  | nil =>
    simp only [scanTime]
    constructor
    · intro h; simp at h
    · rintro ⟨skip, e, h, _⟩
      have e := e.symm
      simp only [List.append_eq_nil_iff] at e
      exact absurd e.1.2 h.ne_nil
  | cons c cs ih =>
    rw [scanTime]
    cases hs : scanTimeHere (c :: cs) with
    | some x =>
      obtain ⟨t, r⟩ := x
      obtain ⟨e, ht⟩ := (scanTimeHere_iff _ _ _).1 hs
      simp only [Option.some.injEq, Prod.mk.injEq]
      constructor
      · rintro ⟨rfl, rfl⟩
        exact ⟨[], e, ht, by simp⟩
      · rintro ⟨skip, e', ht', hmin⟩
        have := hmin [] t r e ht
        have : skip = [] := List.eq_nil_of_length_eq_zero (by simpa using this)
        subst this
        have := (scanTimeHere_iff _ _ _).2 ⟨e', ht'⟩
        simp only [List.nil_append] at this
        rw [hs] at this
        simpa using this
    | none =>
      have no0 : ∀ w' rest', TimeText w' → c :: cs ≠ w' ++ rest' := by
        intro w' rest' hw e
        rw [(scanTimeHere_iff _ _ _).2 ⟨e, hw⟩] at hs
        simp at hs
      simp only
      rw [ih]
      constructor
      · rintro ⟨skip, rfl, hl, hmin⟩
        refine ⟨c :: skip, rfl, hl, ?_⟩
        intro skip' w' rest' e hw'
        cases skip' with
        | nil => exact absurd e (no0 _ _ hw')
        | cons x skip' =>
          simp only [List.cons_append, List.cons.injEq] at e
          have := hmin skip' w' rest' (by simpa using e.2) hw'
          simp; omega
      · rintro ⟨skip, e, hl, hmin⟩
        cases skip with
        | nil => exact absurd e (no0 _ _ hl)
        | cons x skip =>
          simp only [List.cons_append, List.cons.injEq] at e
          refine ⟨skip, e.2, hl, fun skip' w' rest' e' hw' => ?_⟩
          have := hmin (c :: skip') w' rest' (by simp [e']) hw'
          simp at this; omega

theorem readTime_iff (parse : GoStr → Option GoTime) (l : GoStr) (t : GoTime) (rest : GoStr) : readTime parse l = .ok (t, rest) ↔
    ∃ tok, FirstTime l tok rest ∧ parse tok = some t := by
  unfold readTime
  constructor
  · intro h
    split at h
    · simp at h
    · next tok r hs =>
      split at h
      · simp at h
      · next t' hp =>
        simp only [Out.ok.injEq, Prod.mk.injEq] at h
        obtain ⟨rfl, rfl⟩ := h
        exact ⟨tok, (scanTime_iff _ _ _).1 hs, hp⟩
  · rintro ⟨tok, hf, hp⟩
    rw [(scanTime_iff _ _ _).2 hf]
    simp [hp]

/-! ## Cells and rows -/

theorem readCell_iff {env : TextEnv} (hF : NanOK env.float) (H : Heap) (a : Addr) (ty : ColType) (l : GoStr) (hl : 10 ∉ l) (H' : Heap) (c : Cell Addr) (rest : GoStr) :
    readCell env H a ty l = .ok (H', c, rest) ↔ CellReads env a ty H l H' c rest := by
  constructor
  · intro h
    unfold readCell at h
    split at h
    · next k hk =>
      obtain ⟨⟨v, r⟩, hr, e⟩ := Out.bind_ok h
      simp only [Out.ok.injEq, Prod.mk.injEq] at e
      obtain ⟨rfl, rfl, rfl⟩ := e
      exact .int hk ((readInt_iff _ _ _ _).1 hr)
    · split at h
      · obtain ⟨⟨v, r⟩, hr, e⟩ := Out.bind_ok h
        simp only [Out.ok.injEq, Prod.mk.injEq] at e
        obtain ⟨rfl, rfl, rfl⟩ := e
        obtain ⟨body, rfl, hb⟩ := (readString_iff hl _ _).1 hr
        exact .string hb
      · obtain ⟨⟨v, r⟩, hr, e⟩ := Out.bind_ok h
        simp only [Out.ok.injEq, Prod.mk.injEq] at e
        obtain ⟨rfl, rfl, rfl⟩ := e
        obtain ⟨rfl, hb⟩ := (readBool_iff _ _ _).1 hr
        exact .bool hb
      · obtain ⟨⟨v, r⟩, hr, e⟩ := Out.bind_ok h
        simp only [Out.ok.injEq, Prod.mk.injEq] at e
        obtain ⟨rfl, rfl, rfl⟩ := e
        rcases (readBytes_iff _ _ _).1 hr with ⟨rfl, rfl⟩ | ⟨content, rfl, hb⟩
        · exact .noBytes (.inr rfl)
        · exact .bytes (.inr rfl) hb
      · obtain ⟨⟨v, r⟩, hr, e⟩ := Out.bind_ok h
        simp only [Out.ok.injEq, Prod.mk.injEq] at e
        obtain ⟨rfl, rfl, rfl⟩ := e
        rcases (readBytes_iff _ _ _).1 hr with ⟨rfl, rfl⟩ | ⟨content, rfl, hb⟩
        · exact .noBytes (.inl rfl)
        · exact .bytes (.inl rfl) hb
      · obtain ⟨⟨v, r⟩, hr, e⟩ := Out.bind_ok h
        simp only [Out.ok.injEq, Prod.mk.injEq] at e
        obtain ⟨rfl, rfl, rfl⟩ := e
        obtain ⟨skip, body, n, rfl, hs, hb, rfl⟩ := (readRune_iff _ _ _).1 hr
        exact .rune hs hb
      · obtain ⟨⟨v, r⟩, hr, e⟩ := Out.bind_ok h
        simp only [Out.ok.injEq, Prod.mk.injEq] at e
        obtain ⟨rfl, rfl, rfl⟩ := e
        rcases (readFloat32_iff hF _ _ _).1 hr with ⟨tok, h1, h2, h3⟩ | ⟨h1, h2, h3⟩
        · exact .float32 h1 h2 h3
        · exact .nan32 h1 h2 h3
      · obtain ⟨⟨v, r⟩, hr, e⟩ := Out.bind_ok h
        simp only [Out.ok.injEq, Prod.mk.injEq] at e
        obtain ⟨rfl, rfl, rfl⟩ := e
        rcases (readFloat64_iff hF _ _ _).1 hr with ⟨tok, h1, h2, h3⟩ | ⟨h1, h2, h3⟩
        · exact .float64 h1 h2 h3
        · exact .nan64 h1 h2 h3
      · obtain ⟨⟨v, r⟩, hr, e⟩ := Out.bind_ok h
        simp only [Out.ok.injEq, Prod.mk.injEq] at e
        obtain ⟨rfl, rfl, rfl⟩ := e
        rcases (readTable_iff _ _ _).1 hr with ⟨rfl, rfl⟩ | ⟨n, rfl, hn, ho, rfl⟩
        · exact .noTable
        · exact .table hn ho
      · obtain ⟨⟨v, r⟩, hr, e⟩ := Out.bind_ok h
        simp only [Out.ok.injEq, Prod.mk.injEq] at e
        obtain ⟨rfl, rfl, rfl⟩ := e
        obtain ⟨tok, h1, h2⟩ := (readTime_iff _ _ _ _).1 hr
        exact .time h1 h2
      · simp at h
  · intro h
    cases h with
    | int hk h => simp only [readCell, hk, (readInt_iff _ _ _ _).2 h, Out.bind]
    | string h =>
      have : ColType.intKind? .string = none := rfl
      simp only [readCell, this, (readString_iff hl _ _).2 ⟨_, rfl, h⟩, Out.bind]
    | bool h =>
      have : ColType.intKind? .bool = none := rfl
      simp only [readCell, this, (readBool_iff _ _ _).2 ⟨rfl, h⟩, Out.bind]
    | noBytes hty =>
      rcases hty with rfl | rfl
      · have : ColType.intKind? .byteSlice = none := rfl
        simp only [readCell, this, (readBytes_iff _ _ _).2 (.inl ⟨rfl, rfl⟩), Out.bind]
      · have : ColType.intKind? .uint8Slice = none := rfl
        simp only [readCell, this, (readBytes_iff _ _ _).2 (.inl ⟨rfl, rfl⟩), Out.bind]
    | bytes hty h =>
      rcases hty with rfl | rfl
      · have : ColType.intKind? .byteSlice = none := rfl
        simp only [readCell, this, (readBytes_iff _ _ _).2 (.inr ⟨_, rfl, h⟩), Out.bind]
      · have : ColType.intKind? .uint8Slice = none := rfl
        simp only [readCell, this, (readBytes_iff _ _ _).2 (.inr ⟨_, rfl, h⟩), Out.bind]
    | rune hs h =>
      have : ColType.intKind? .rune = none := rfl
      simp only [readCell, this, (readRune_iff _ _ _).2 ⟨_, _, _, rfl, hs, h, rfl⟩, Out.bind]
    | float32 h1 h2 h3 =>
      have : ColType.intKind? .float32 = none := rfl
      simp only [readCell, this, (readFloat32_iff hF _ _ _).2 (.inl ⟨_, h1, h2, h3⟩), Out.bind]
    | float64 h1 h2 h3 =>
      have : ColType.intKind? .float64 = none := rfl
      simp only [readCell, this, (readFloat64_iff hF _ _ _).2 (.inl ⟨_, h1, h2, h3⟩), Out.bind]
    | nan32 h1 h2 h3 =>
      have : ColType.intKind? .float32 = none := rfl
      simp only [readCell, this, (readFloat32_iff hF _ _ _).2 (.inr ⟨h1, h2, h3⟩), Out.bind]
    | nan64 h1 h2 h3 =>
      have : ColType.intKind? .float64 = none := rfl
      simp only [readCell, this, (readFloat64_iff hF _ _ _).2 (.inr ⟨h1, h2, h3⟩), Out.bind]
    | noTable =>
      have : ColType.intKind? .table = none := rfl
      simp only [readCell, this, (readTable_iff _ _ _).2 (.inl ⟨rfl, rfl⟩), Out.bind]
    | table hn ho =>
      have : ColType.intKind? .table = none := rfl
      simp only [readCell, this, (readTable_iff _ _ _).2 (.inr ⟨_, rfl, hn, ho, rfl⟩), Out.bind]
    | time h1 h2 =>
      have : ColType.intKind? .time = none := rfl
      simp only [readCell, this, (readTime_iff _ _ _ _).2 ⟨_, h1, h2⟩, Out.bind]

theorem CellReads.tail {env : TextEnv} {a : Addr} {ty : ColType} {H : Heap} {l : GoStr} {H' : Heap} {c : Cell Addr} {rest : GoStr}
    (h : CellReads env a ty H l H' c rest) : l ≠ [] ∧ ∃ pre, l = pre ++ rest := by
  have two : ∀ {x y : GoStr}, x ≠ [] → l = x ++ y → l ≠ [] := by
    rintro x y hx rfl; simp [hx]
  cases h with
  | int _ h =>
    obtain ⟨tok, ⟨e, ht, _⟩, _⟩ := h
    refine ⟨two ?_ e, tok, e⟩
    cases ht with
    | dec h => exact h.1
    | _ => simp
  | @string _ body s rest h => exact ⟨by simp, 34 :: body ++ [34], by simp⟩
  | @bool _ b rest h => exact ⟨by cases b <;> simp, _, rfl⟩
  | noBytes => exact ⟨by simp, _, rfl⟩
  | @bytes _ _ content vs rest => exact ⟨by simp, 91 :: content ++ [93], by simp⟩
  | @rune _ skip body v rest => exact ⟨by simp, skip ++ 39 :: body ++ [39], by simp⟩
  | float32 h =>
    refine ⟨two ?_ h.1, _, h.1⟩
    obtain ⟨_, _, _, hl⟩ := h.2.1
    cases hl with
    | mk _ hm _ => cases hm with
      | whole h => simp [h.1]
      | point => simp
  | float64 h =>
    refine ⟨two ?_ h.1, _, h.1⟩
    obtain ⟨_, _, _, hl⟩ := h.2.1
    cases hl with
    | mk _ hm _ => cases hm with
      | whole h => simp [h.1]
      | point => simp
  | nan32 _ h => obtain ⟨skip, rfl, _⟩ := h; exact ⟨by simp, _, rfl⟩
  | nan64 _ h => obtain ⟨skip, rfl, _⟩ := h; exact ⟨by simp, _, rfl⟩
  | noTable => exact ⟨by simp, _, rfl⟩
  | @table _ n rest => exact ⟨by simp, 91 :: n ++ [93], by simp⟩
  | time h => obtain ⟨skip, rfl, ht, _⟩ := h; exact ⟨by simp [ht.ne_nil], _, rfl⟩

theorem trimBlanks_iff (l more : GoStr) : trimBlanks l = more ↔ ∃ blanks, l = blanks ++ more ∧ (∀ b ∈ blanks, b = 32 ∨ b = 9) ∧ ∀ b bs, more = b :: bs → b ≠ 32 ∧ b ≠ 9 := by
  unfold trimBlanks
  constructor
  · rintro rfl
    refine ⟨l.takeWhile fun c => c = 32 || c = 9, List.takeWhile_append_dropWhile.symm, fun b hb => ?_, fun b bs e => ?_⟩
    · have := List.all_eq_true.1 (List.all_takeWhile (p := fun c : UInt8 => c = 32 || c = 9) (l := l)) b hb
      simpa using this
    · have := List.head?_dropWhile_not (p := fun c : UInt8 => c = 32 || c = 9) l
      rw [e] at this
      simpa using this
  · rintro ⟨blanks, rfl, h1, h2⟩
    exact (takeWhile_all (p := fun c : UInt8 => c = 32 || c = 9) (fun c hc => by simpa using h1 c hc) (fun c cs e => by simpa using h2 c cs e)).2

theorem readRow_iff {env : TextEnv} (hF : NanOK env.float) (a : Addr) (names : List GoStr) (tys : List ColType) (hlen : names.length = tys.length)
    (H : Heap) (l : GoStr) (hl : 10 ∉ l) (H' : Heap) (cs : List (Cell Addr)) :
    readRow env a H names (tys.map ColType.name) l = .ok (H', cs) ↔ RowReads env a tys H l H' cs := by
  induction tys generalizing names H l cs with
  | nil =>
    have : names = [] := List.eq_nil_of_length_eq_zero (by simpa using hlen)
    subst this
    simp only [List.map_nil, readRow]
    constructor
    · intro h
      split at h
      · simp at h
      · next hz =>
        simp only [Out.ok.injEq, Prod.mk.injEq] at h
        obtain ⟨rfl, rfl⟩ := h
        have : l = [] := List.eq_nil_of_length_eq_zero (by omega)
        subst this
        exact .nil
    · intro h
      cases h
      rfl
  | cons ty tys ih =>
    match names, hlen with
    | n :: names, hlen =>
      have hlen : names.length = tys.length := by simpa using hlen
      simp only [List.map_cons, readRow, ofName?_name]
      constructor
      · intro h
        split at h
        · simp at h
        · obtain ⟨⟨H1, c, rest⟩, hc, h⟩ := Out.bind_ok h
          simp only at h
          obtain ⟨⟨H2, cells⟩, hr, e⟩ := Out.bind_ok h
          simp only [Out.ok.injEq, Prod.mk.injEq] at e
          obtain ⟨rfl, rfl⟩ := e
          have hcr := (readCell_iff hF _ _ _ _ hl _ _ _).1 hc
          obtain ⟨pre, hpre⟩ := hcr.tail.2
          obtain ⟨blanks, e, hb, hm⟩ := (trimBlanks_iff rest _).1 rfl
          have hl2 : 10 ∉ trimBlanks rest := fun hm => hl (by rw [hpre, List.mem_append, e, List.mem_append]; exact .inr (.inr hm))
          rw [e] at hcr
          exact .cons hcr hb hm ((ih names hlen H1 _ hl2 cells).1 hr)
      · intro h
        cases h with
        | @cons _ _ _ _ H1 c blanks more _ cs hcr hb hm hr =>
          obtain ⟨pre, e⟩ := hcr.tail.2
          have hne := hcr.tail.1
          have hl2 : 10 ∉ more := fun hm => hl (by rw [e]; simp [hm])
          rw [if_neg (by intro h0; exact hne (List.eq_nil_of_length_eq_zero h0)), (readCell_iff hF _ _ _ _ hl _ _ _).2 hcr]
          simp only [Out.bind]
          rw [(trimBlanks_iff _ more).2 ⟨blanks, rfl, hb, hm⟩, (ih names hlen H1 _ hl2 cs).2 hr]

end Verif
