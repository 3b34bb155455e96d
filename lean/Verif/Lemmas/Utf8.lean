import Verif.Go.Utf8

/-!
# UTF-8 round trip
-/

namespace Verif

theorem u8_toNat_ofNat {n : Nat} (h : n < 256) : (UInt8.ofNat n).toNat = n := by
  simp [UInt8.toNat_ofNat', Nat.mod_eq_of_lt h]

theorem u8_eq {c : UInt8} {n : Nat} (h : c.toNat = n) : UInt8.ofNat n = c := by
  subst h; simp

theorem decode_encode {r : Nat} (h : ValidRune r) (rest : GoStr) : decodeRune? (encodeRune r ++ rest) = some (r, (encodeRune r).length) := by
  have hr : r ≤ 0x10FFFF := by unfold ValidRune at h; omega
  unfold encodeRune
  simp only [if_pos h]
  split
  · rename_i h1
    simp only [decodeRune?, List.cons_append, u8_toNat_ofNat (show r < 256 by omega), if_pos h1, List.length_cons, List.length_nil]
  · split
    · rename_i h1 h2
      have e0 := u8_toNat_ofNat (show 0xC0 + r / 64 < 256 by omega)
      have e1 := u8_toNat_ofNat (show 0x80 + r % 64 < 256 by omega)
      simp only [decodeRune?, List.cons_append, List.nil_append, isCont, e0, e1, List.length_cons, List.length_nil]
      rw [if_neg (by omega), if_neg (by omega), if_pos (by omega), if_pos (by omega)]
      simp only [Option.some.injEq, Prod.mk.injEq, and_true]; omega
    · split
      · rename_i h1 h2 h3
        have e0 := u8_toNat_ofNat (show 0xE0 + r / 4096 < 256 by omega)
        have e1 := u8_toNat_ofNat (show 0x80 + r / 64 % 64 < 256 by omega)
        have e2 := u8_toNat_ofNat (show 0x80 + r % 64 < 256 by omega)
        simp only [decodeRune?, List.cons_append, List.nil_append, isCont, e0, e1, e2, List.length_cons, List.length_nil]
        rw [if_neg (by omega), if_neg (by omega), if_neg (by omega), if_pos (by omega), if_pos]
        · simp only [Option.some.injEq, Prod.mk.injEq, and_true]; omega
        · unfold ValidRune at h
          unfold utf8Lo utf8Hi
          refine ⟨?_, ?_, by omega⟩
          · split
            · omega
            · split <;> omega
          · split
            · omega
            · split <;> omega
      · rename_i h1 h2 h3
        have e0 := u8_toNat_ofNat (show 0xF0 + r / 262144 < 256 by omega)
        have e1 := u8_toNat_ofNat (show 0x80 + r / 4096 % 64 < 256 by omega)
        have e2 := u8_toNat_ofNat (show 0x80 + r / 64 % 64 < 256 by omega)
        have e3 := u8_toNat_ofNat (show 0x80 + r % 64 < 256 by omega)
        simp only [decodeRune?, List.cons_append, List.nil_append, isCont, e0, e1, e2, e3, List.length_cons, List.length_nil]
        rw [if_neg (by omega), if_neg (by omega), if_neg (by omega), if_neg (by omega), if_pos (by omega), if_pos]
        · simp only [Option.some.injEq, Prod.mk.injEq, and_true]; omega
        · unfold utf8Lo utf8Hi
          refine ⟨?_, ?_, by omega⟩
          · split
            · omega
            · split <;> omega
          · split
            · omega
            · split <;> omega

theorem encode_decode {l : GoStr} {r w : Nat} (h : decodeRune? l = some (r, w)) :
    ValidRune r ∧ w = (encodeRune r).length ∧ ∃ rest, l = encodeRune r ++ rest := by
  unfold decodeRune? at h
  split at h
  · simp at h
  · rename_i c0 cs
    have hc0 := c0.toNat_lt
    simp only at h
    split at h
    · rename_i h1
      simp only [Option.some.injEq, Prod.mk.injEq] at h
      obtain ⟨rfl, rfl⟩ := h
      have hv : ValidRune c0.toNat := by unfold ValidRune; omega
      have e : encodeRune c0.toNat = [c0] := by
        unfold encodeRune
        simp only [if_pos hv]
        rw [if_pos h1, u8_eq rfl]
      exact ⟨hv, by rw [e]; rfl, cs, by rw [e]; rfl⟩
    · split at h
      · simp at h
      · split at h
        · rename_i h1 h2 h3
          split at h
          · rename_i c1 cs
            split at h
            · rename_i hc
              unfold isCont at hc
              simp only [Option.some.injEq, Prod.mk.injEq] at h
              obtain ⟨hr, rfl⟩ := h
              have hv : ValidRune r := by unfold ValidRune; omega
              have e : encodeRune r = [c0, c1] := by
                unfold encodeRune
                simp only [if_pos hv]
                rw [if_neg (by omega), if_pos (by omega), u8_eq (show c0.toNat = _ by omega), u8_eq (show c1.toNat = _ by omega)]
              exact ⟨hv, by rw [e]; rfl, cs, by rw [e]; rfl⟩
            · simp at h
          · simp at h
        · split at h
          · rename_i h1 h2 h3 h4
            split at h
            · rename_i c1 c2 cs
              split at h
              · rename_i hc
                obtain ⟨hlo, hhi, hc2⟩ := hc
                unfold isCont at hc2
                simp only [Option.some.injEq, Prod.mk.injEq] at h
                obtain ⟨hr, rfl⟩ := h
                unfold utf8Lo at hlo
                unfold utf8Hi at hhi
                have hb : 0x80 ≤ c1.toNat ∧ c1.toNat ≤ 0xBF ∧ (c0.toNat = 0xE0 → 0xA0 ≤ c1.toNat) ∧ (c0.toNat = 0xED → c1.toNat ≤ 0x9F) := by
                  refine ⟨?_, ?_, ?_, ?_⟩
                  · split at hlo
                    · omega
                    · split at hlo <;> omega
                  · split at hhi
                    · omega
                    · split at hhi <;> omega
                  · intro h; rw [if_pos h] at hlo; exact hlo
                  · intro h; rw [if_pos h] at hhi; exact hhi
                have hv : ValidRune r := by unfold ValidRune; omega
                have e : encodeRune r = [c0, c1, c2] := by
                  unfold encodeRune
                  simp only [if_pos hv]
                  rw [if_neg (by omega), if_neg (by omega), if_pos (by omega), u8_eq (show c0.toNat = _ by omega),
                    u8_eq (show c1.toNat = _ by omega), u8_eq (show c2.toNat = _ by omega)]
                exact ⟨hv, by rw [e]; rfl, cs, by rw [e]; rfl⟩
              · simp at h
            · simp at h
          · split at h
            · rename_i h1 h2 h3 h4 h5
              split at h
              · rename_i c1 c2 c3 cs
                split at h
                · rename_i hc
                  obtain ⟨hlo, hhi, hc2, hc3⟩ := hc
                  unfold isCont at hc2 hc3
                  simp only [Option.some.injEq, Prod.mk.injEq] at h
                  obtain ⟨hr, rfl⟩ := h
                  unfold utf8Lo at hlo
                  unfold utf8Hi at hhi
                  have hb : 0x80 ≤ c1.toNat ∧ c1.toNat ≤ 0xBF ∧ (c0.toNat = 0xF0 → 0x90 ≤ c1.toNat) ∧ (c0.toNat = 0xF4 → c1.toNat ≤ 0x8F) := by
                    refine ⟨?_, ?_, ?_, ?_⟩
                    · split at hlo
                      · omega
                      · split at hlo <;> omega
                    · split at hhi
                      · omega
                      · split at hhi <;> omega
                    · intro h; rw [if_neg (by omega), if_pos h] at hlo; exact hlo
                    · intro h; rw [if_neg (by omega), if_pos h] at hhi; exact hhi
                  have hv : ValidRune r := by unfold ValidRune; omega
                  have e : encodeRune r = [c0, c1, c2, c3] := by
                    unfold encodeRune
                    simp only [if_pos hv]
                    rw [if_neg (by omega), if_neg (by omega), if_neg (by omega), u8_eq (show c0.toNat = _ by omega),
                      u8_eq (show c1.toNat = _ by omega), u8_eq (show c2.toNat = _ by omega), u8_eq (show c3.toNat = _ by omega)]
                  exact ⟨hv, by rw [e]; rfl, cs, by rw [e]; rfl⟩
                · simp at h
              · simp at h
            · simp at h

/-- The bytes of an encoded code point: one ASCII byte equal to it, or bytes from 0x80. -/
theorem encodeRune_bytes (r : Nat) (h : ValidRune r) :
    (r < 0x80 ∧ encodeRune r = [UInt8.ofNat r]) ∨ (0x80 ≤ r ∧ encodeRune r ≠ [] ∧ ∀ c ∈ encodeRune r, 0x80 ≤ c.toNat) := by
  have hr : r ≤ 0x10FFFF := by unfold ValidRune at h; omega
  unfold encodeRune
  simp only [if_pos h]
  split
  · rename_i h1; exact .inl ⟨h1, rfl⟩
  · rename_i h1
    refine .inr ⟨by omega, ?_⟩
    split
    · refine ⟨by simp, ?_⟩
      intro c hc
      simp only [List.mem_cons, List.not_mem_nil, or_false] at hc
      rcases hc with rfl | rfl <;> rw [u8_toNat_ofNat (by omega)] <;> omega
    · split
      · refine ⟨by simp, ?_⟩
        intro c hc
        simp only [List.mem_cons, List.not_mem_nil, or_false] at hc
        rcases hc with rfl | rfl | rfl <;> rw [u8_toNat_ofNat (by omega)] <;> omega
      · refine ⟨by simp, ?_⟩
        intro c hc
        simp only [List.mem_cons, List.not_mem_nil, or_false] at hc
        rcases hc with rfl | rfl | rfl | rfl <;> rw [u8_toNat_ofNat (by omega)] <;> omega

end Verif
