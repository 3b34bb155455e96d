import Verif.Go.Quote
import Verif.Lemmas.Utf8

/-!
# Quoting and unquoting
-/

namespace Verif

theorem unhex_hexDigit (n : Nat) (h : n < 16) : unhex (hexDigit n) = some n := by
  have : ∀ n : Fin 16, unhex (hexDigit n.val) = some n.val := by decide
  exact this ⟨n, h⟩

theorem hexDigit_plain (n : Nat) (h : n < 16) : hexDigit n ≠ 34 ∧ hexDigit n ≠ 92 ∧ hexDigit n ≠ 39 := by
  have : ∀ n : Fin 16, hexDigit n.val ≠ 34 ∧ hexDigit n.val ≠ 92 ∧ hexDigit n.val ≠ 39 := by decide
  exact this ⟨n, h⟩

theorem readHex_hexDigits (w n v : Nat) (tail : GoStr) : readHex w (hexDigits w n ++ tail) v = some (v * 16 ^ w + n % 16 ^ w, tail) := by
  induction w generalizing v with
  | zero => simp [hexDigits, readHex, Nat.mod_one]
  | succ w ih =>
    simp only [hexDigits, List.cons_append, readHex]
    rw [unhex_hexDigit _ (Nat.mod_lt _ (by omega))]
    simp only
    rw [ih, Nat.mod_pow_succ, Nat.pow_succ]
    have e : (v * 16 + n / 16 ^ w % 16) * 16 ^ w + n % 16 ^ w = v * (16 ^ w * 16) + (n % 16 ^ w + 16 ^ w * (n / 16 ^ w % 16)) := by
      rw [Nat.add_mul, Nat.mul_assoc, Nat.mul_comm 16 (16 ^ w), Nat.mul_comm (n / 16 ^ w % 16)]
      omega
    rw [e]

theorem hexDigits_plain (w n : Nat) : ∀ c ∈ hexDigits w n, c ≠ 34 ∧ c ≠ 92 ∧ c ≠ 39 := by
  induction w with
  | zero => simp [hexDigits]
  | succ w ih =>
    intro c hc
    simp only [hexDigits, List.mem_cons] at hc
    rcases hc with rfl | hc
    · exact hexDigit_plain _ (Nat.mod_lt _ (by omega))
    · exact ih c hc

/-- What an escaped code point looks like. -/
inductive EscShape (q r : Nat) : GoStr → Prop
  | self : r = q ∨ r = 92 → EscShape q r [92, UInt8.ofNat r]
  | raw : r ≠ q → r ≠ 92 → r ≠ 10 → EscShape q r (encodeRune r)
  | letter {c : UInt8} : (c, r) ∈ [((97 : UInt8), 7), (98, 8), (102, 12), (110, 10), (114, 13), (116, 9), (118, 11)] → EscShape q r [92, c]
  | x : r < 0x80 → EscShape q r (92 :: 120 :: hexDigits 2 r)
  | u : r < 0x10000 → EscShape q r (92 :: 117 :: hexDigits 4 r)
  | U : EscShape q r (92 :: 85 :: hexDigits 8 r)

theorem escapeRune_shape (hi : Nat → Bool) (q r : Nat) : EscShape q r (escapeRune hi q r) := by
  unfold escapeRune
  split
  · rename_i h; exact .self h
  · rename_i h
    have h' : r ≠ q ∧ r ≠ 92 := ⟨fun e => h (.inl e), fun e => h (.inr e)⟩
    split
    · rename_i hp
      refine .raw h'.1 h'.2 ?_
      rintro rfl
      simp [isPrint] at hp
    · split
      · rename_i h; subst h; exact .letter (by decide)
      · split
        · rename_i h; subst h; exact .letter (by decide)
        · split
          · rename_i h; subst h; exact .letter (by decide)
          · split
            · rename_i h; subst h; exact .letter (by decide)
            · split
              · rename_i h; subst h; exact .letter (by decide)
              · split
                · rename_i h; subst h; exact .letter (by decide)
                · split
                  · rename_i h; subst h; exact .letter (by decide)
                  · split
                    · exact .x (by omega)
                    · split
                      · rename_i h; exact .u h
                      · exact .U

theorem charBytes_small {r : Nat} (h : r < 0x80) (mb : Bool) : charBytes r mb = encodeRune r := by
  have hv : ValidRune r := .inl (by omega)
  have : encodeRune r = [UInt8.ofNat r] := by
    unfold encodeRune
    simp only [if_pos hv, if_pos h]
  rw [this, charBytes, if_pos (.inl h)]

/-- One escaped code point is read back. -/
theorem unquoteChar_esc {q r : Nat} {p : GoStr} (hs : EscShape q r p) (hv : ValidRune r) (hq : q = 34 ∨ q = 39) (tail : GoStr) :
    ∃ mb, unquoteChar (p ++ tail) (UInt8.ofNat q) = some (r, mb, tail) ∧ charBytes r mb = encodeRune r := by
  have hr : r ≤ 0x10FFFF := by unfold ValidRune at hv; omega
  have hq92 : (92 : UInt8) ≠ UInt8.ofNat q := by rcases hq with rfl | rfl <;> decide
  have h80 : ¬ (0x80 : UInt8) ≤ 92 := by decide
  cases hs with
  | self h =>
    refine ⟨false, ?_, charBytes_small (by omega) _⟩
    simp only [List.cons_append, List.nil_append, unquoteChar, if_neg hq92, if_neg h80, ne_eq, not_true_eq_false, if_false]
    rcases h with rfl | rfl
    · rcases hq with rfl | rfl <;> simp [unescape]
    · rcases hq with rfl | rfl <;> simp [unescape]
  | letter h =>
    have hr' : r < 0x80 := by
      simp at h; omega
    refine ⟨false, ?_, charBytes_small hr' _⟩
    simp only [List.cons_append, List.nil_append, unquoteChar, if_neg hq92, if_neg h80, ne_eq, not_true_eq_false, if_false]
    simp at h
    rcases h with ⟨rfl, rfl⟩ | ⟨rfl, rfl⟩ | ⟨rfl, rfl⟩ | ⟨rfl, rfl⟩ | ⟨rfl, rfl⟩ | ⟨rfl, rfl⟩ | ⟨rfl, rfl⟩ <;> simp [unescape]
  | raw h1 h2 h3 =>
    rcases encodeRune_bytes r hv with ⟨hs, he⟩ | ⟨hs, hne, hb⟩
    · refine ⟨false, ?_, charBytes_small hs _⟩
      rw [he]
      have t0 := u8_toNat_ofNat (show r < 256 by omega)
      have n1 : UInt8.ofNat r ≠ UInt8.ofNat q := by
        intro e
        have := congrArg UInt8.toNat e
        rw [t0, u8_toNat_ofNat (by omega)] at this
        exact h1 this
      have n2 : UInt8.ofNat r ≠ 92 := by
        intro e
        have := congrArg UInt8.toNat e
        rw [t0] at this
        exact h2 this
      have n3 : ¬ (0x80 : UInt8) ≤ UInt8.ofNat r := by
        rw [UInt8.le_iff_toNat_le, t0]
        simp; omega
      simp only [List.cons_append, List.nil_append, unquoteChar, if_neg n1, if_neg n3, if_pos n2, t0]
    · refine ⟨true, ?_, ?_⟩
      · have hd := decode_encode hv tail
        cases he : encodeRune r with
        | nil => exact absurd he hne
        | cons c cs =>
          rw [he] at hd hb
          have hc := hb c (by simp)
          have n1 : c ≠ UInt8.ofNat q := by
            rintro rfl
            rcases hq with rfl | rfl <;> simp at hc
          have n3 : (0x80 : UInt8) ≤ c := by
            rw [UInt8.le_iff_toNat_le]
            simp; omega
          simp only [List.cons_append] at hd ⊢
          simp only [unquoteChar, if_neg n1, if_pos n3]
          rw [hd]
          simp
      · unfold charBytes
        rw [if_neg (by simp; omega)]
  | x h =>
    refine ⟨false, ?_, charBytes_small h _⟩
    simp only [List.cons_append, unquoteChar, if_neg hq92, if_neg h80, ne_eq, not_true_eq_false, if_false]
    simp [unescape, readHex_hexDigits]
    omega
  | u h =>
    refine ⟨true, ?_, ?_⟩
    · simp only [List.cons_append, unquoteChar, if_neg hq92, if_neg h80, ne_eq, not_true_eq_false, if_false]
      have e : readHex 4 (hexDigits 4 r ++ tail) 0 = some (r, tail) := by
        rw [readHex_hexDigits, Nat.zero_mul, Nat.zero_add, Nat.mod_eq_of_lt (by simpa using h)]
      simp [unescape, e, hv]
    · by_cases hs : r < 0x80
      · exact charBytes_small hs _
      · unfold charBytes
        rw [if_neg (by simp; omega)]
  | U =>
    refine ⟨true, ?_, ?_⟩
    · simp only [List.cons_append, unquoteChar, if_neg hq92, if_neg h80, ne_eq, not_true_eq_false, if_false]
      have e : readHex 8 (hexDigits 8 r ++ tail) 0 = some (r, tail) := by
        rw [readHex_hexDigits, Nat.zero_mul, Nat.zero_add, Nat.mod_eq_of_lt (by
          have : 16 ^ 8 = 4294967296 := by decide
          omega)]
      simp [unescape, e, hv]
    · by_cases hs : r < 0x80
      · exact charBytes_small hs _
      · unfold charBytes
        rw [if_neg (by simp; omega)]

/-- An invalid byte is read back. -/
theorem unquoteChar_byte (c : UInt8) (tail : GoStr) :
    unquoteChar (92 :: 120 :: hexDigits 2 c.toNat ++ tail) 34 = some (c.toNat, false, tail) := by
  have h92 : (92 : UInt8) ≠ 34 := by decide
  have h80 : ¬ (0x80 : UInt8) ≤ 92 := by decide
  have := c.toNat_lt
  simp only [List.cons_append, unquoteChar, if_neg h92, if_neg h80, ne_eq, not_true_eq_false, if_false]
  simp [unescape, readHex_hexDigits]

/-- The quoting loop skips. -/
theorem quoteLoop_skip (hi : Nat → Bool) (k : Nat) (l : GoStr) : quoteLoop hi k l = quoteLoop hi 0 (l.drop k) := by
  induction k generalizing l with
  | zero => simp
  | succ k ih =>
    cases l with
    | nil => simp [quoteLoop]
    | cons c cs => simp only [quoteLoop, List.drop_succ_cons]; exact ih cs

/-- The pieces of a quoted string: every piece stands for some bytes of the string. -/
inductive Pieces : GoStr → GoStr → Prop
  | nil : Pieces [] []
  | esc {r p s out} : ValidRune r → EscShape 34 r p → Pieces s out → Pieces (encodeRune r ++ s) (p ++ out)
  | byte {c s out} : Pieces s out → Pieces (c :: s) (92 :: 120 :: hexDigits 2 c.toNat ++ out)

theorem quoteLoop_pieces (hi : Nat → Bool) (s : GoStr) : Pieces s (quoteLoop hi 0 s) := by
  suffices ∀ n, ∀ s : GoStr, s.length ≤ n → Pieces s (quoteLoop hi 0 s) from this s.length s (Nat.le_refl _)
  intro n
  induction n with
  | zero =>
    intro s hs
    cases s with
    | nil => exact .nil
    | cons => simp at hs
  | succ n ih =>
    intro s hs
    cases s with
    | nil => exact .nil
    | cons c cs =>
      simp only [List.length_cons] at hs
      simp only [quoteLoop]
      cases hd : decodeRune? (c :: cs) with
      | none => exact .byte (ih cs (by omega))
      | some p =>
        obtain ⟨r, w⟩ := p
        obtain ⟨hv, hw, rest, hl⟩ := encode_decode hd
        have hne : encodeRune r ≠ [] := by
          rcases encodeRune_bytes r hv with ⟨_, he⟩ | ⟨_, hne, _⟩
          · rw [he]; simp
          · exact hne
        have hpos : 0 < (encodeRune r).length := List.length_pos_iff.2 hne
        have hdrop : cs.drop (w - 1) = rest := by
          have : (c :: cs).drop w = rest := by rw [hl, hw]; simp
          rw [show w = (w - 1) + 1 by omega, List.drop_succ_cons] at this
          exact this
        simp only
        rw [quoteLoop_skip, hdrop, hl]
        refine .esc hv (escapeRune_shape hi 34 r) (ih rest ?_)
        have := congrArg List.length hl
        simp only [List.length_cons, List.length_append] at this
        omega

theorem EscShape.ne_nil {q r : Nat} {p : GoStr} (h : EscShape q r p) (hv : ValidRune r) : p ≠ [] := by
  cases h with
  | raw =>
    rcases encodeRune_bytes r hv with ⟨_, he⟩ | ⟨_, hne, _⟩
    · rw [he]; simp
    · exact hne
  | _ => simp

/-- The first byte of an escaped code point is neither the quote nor a newline. -/
theorem EscShape.head {r : Nat} {p : GoStr} (h : EscShape 34 r p) (hv : ValidRune r) (c : UInt8) (cs : GoStr) (e : p = c :: cs) : c ≠ 34 ∧ c ≠ 10 := by
  have h92 : ∀ c : UInt8, ∀ cs ds : GoStr, 92 :: ds = c :: cs → c ≠ 34 ∧ c ≠ 10 := by
    intro c cs ds e
    simp only [List.cons.injEq] at e
    obtain ⟨rfl, _⟩ := e
    decide
  cases h with
  | self => exact h92 _ _ _ e
  | letter => exact h92 _ _ _ e
  | x => exact h92 _ _ _ e
  | u => exact h92 _ _ _ e
  | U => exact h92 _ _ _ e
  | raw h1 h2 h3 =>
    rcases encodeRune_bytes r hv with ⟨hs, he⟩ | ⟨hs, hne, hb⟩
    · rw [he] at e
      simp only [List.cons.injEq] at e
      have t := u8_toNat_ofNat (show r < 256 by omega)
      rw [e.1] at t
      constructor
      · rintro rfl; exact h1 t.symm
      · rintro rfl; exact h3 t.symm
    · have := hb c (by rw [e]; simp)
      constructor <;> rintro rfl <;> simp at this

theorem unquoteLoop_pieces {s out : GoStr} (h : Pieces s out) (rest : GoStr) (n : Nat) (hn : out.length < n) :
    unquoteLoop n (out ++ 34 :: rest) = some (s, rest) := by
  induction h generalizing n with
  | nil =>
    cases n with
    | zero => omega
    | succ n => simp [unquoteLoop]
  | @esc r p s out hv hs hp ih =>
    cases n with
    | zero => omega
    | succ n =>
      obtain ⟨mb, h1, h2⟩ := unquoteChar_esc hs hv (.inl rfl) (out ++ 34 :: rest)
      have hne := hs.ne_nil hv
      cases hpe : p with
      | nil => exact absurd hpe hne
      | cons c cs =>
        have hhd := hs.head hv c cs hpe
        rw [hpe] at h1 hn
        simp only [List.length_append, List.length_cons] at hn
        rw [List.append_assoc]
        simp only [List.cons_append] at h1 ⊢
        simp only [unquoteLoop, if_neg hhd.1, if_neg hhd.2]
        rw [show UInt8.ofNat 34 = 34 from rfl] at h1
        rw [h1]
        simp only
        rw [ih n (by omega)]
        simp [h2]
  | @byte c s out hp ih =>
    cases n with
    | zero => omega
    | succ n =>
      have h1 := unquoteChar_byte c (out ++ 34 :: rest)
      simp only [List.length_append, List.length_cons] at hn
      rw [List.append_assoc]
      simp only [List.cons_append] at h1 ⊢
      rw [unquoteLoop, if_neg (by decide), if_neg (by decide), h1]
      simp only
      rw [ih n (by omega)]
      simp [charBytes]

end Verif
