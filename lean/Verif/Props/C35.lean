import Verif.Lemmas.Scan

/-!
# C35: runes round-trip for every code point

`strconvQuoteRune` is what the printers write for a rune cell (gotables.go:1226, 1536), `readRune` what the row parser does at a rune column.
-/

namespace Verif

/-- Every Unicode code point is read back exactly, and reading stops exactly where the quoted text stops, whatever follows — other rune cells,
quotes and backslashes included. -/
theorem C35_roundTrip (hi : Nat → Bool) (r : Int) (h0 : 0 ≤ r) (hv : r < 0xD800 ∨ (0xE000 ≤ r ∧ r ≤ 0x10FFFF)) (rest : GoStr) :
    readRune (strconvQuoteRune hi r ++ rest) = .ok (r, rest) := by
  have e : ((r.toNat : Nat) : Int) = r := Int.toNat_of_nonneg h0
  have := readRune_quote hi r.toNat (by unfold ValidRune; omega) rest
  rw [e] at this
  exact this

example : readRune (strconvQuoteRune (fun _ => true) 39 ++ gs! " 'x' '\\x41'") = .ok (39, gs! " 'x' '\\x41'") := by decide +kernel
example : readRune (strconvQuoteRune (fun _ => false) 0x20AC ++ gs! "'") = .ok (0x20AC, gs! "'") := by decide +kernel

/-- A rune cell that is not a code point (the type admits every 32-bit number) is not preserved: it comes back as U+FFFD. -/
theorem C35_notCodePoint (hi : Nat → Bool) (r : Int) (hv : ¬ (0 ≤ r ∧ (r < 0xD800 ∨ (0xE000 ≤ r ∧ r ≤ 0x10FFFF)))) (rest : GoStr) :
    readRune (strconvQuoteRune hi r ++ rest) = .ok (0xFFFD, rest) := by
  have h := readRune_quote hi 0xFFFD (by decide) rest
  have e : strconvQuoteRune hi r = strconvQuoteRune hi ((0xFFFD : Nat) : Int) := by
    unfold strconvQuoteRune
    have h1 : ¬ (0 ≤ r ∧ ValidRune r.toNat) := by unfold ValidRune; omega
    rw [if_neg h1, if_pos (by decide)]
    rfl
  rw [e, h]
  rfl

example : readRune (strconvQuoteRune (fun _ => true) 0xD800) = .ok (0xFFFD, []) ∧ readRune (strconvQuoteRune (fun _ => true) (-1)) = .ok (0xFFFD, []) := by
  decide +kernel

end Verif
