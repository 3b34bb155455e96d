import Verif.Lemmas.Scan

/-!
# C34: quoted strings round-trip for every byte sequence

`strconvQuote` is what both table printers write for a string cell (gotables.go:1222, 1497), `readString` what the row parser does at a string
column: the string it stores and the text that remains for the following columns.  `hi` says which code points above U+00FF are printable; the
theorems hold for every such table.
-/

namespace Verif

/-- Every string is read back exactly, and reading stops exactly where the quoted text stops, whatever follows. -/
theorem C34_roundTrip (hi : Nat → Bool) (s rest : GoStr) : readString (strconvQuote hi s ++ rest) = .ok (s, rest) :=
  readString_quote hi s rest

example : readString (strconvQuote (fun _ => true) (gs! "a\"\\\n é" ++ [0xFF, 0]) ++ gs! " \"b\"") =
    .ok (gs! "a\"\\\n é" ++ [0xFF, 0], gs! " \"b\"") := by decide +kernel

/-- Different strings are never written alike, even as part of longer rows. -/
theorem C34_injective (hi : Nat → Bool) (s s' rest rest' : GoStr) (h : strconvQuote hi s ++ rest = strconvQuote hi s' ++ rest') :
    s = s' ∧ rest = rest' := by
  have h1 := readString_quote hi s rest
  rw [h, readString_quote] at h1
  simp only [Out.ok.injEq, Prod.mk.injEq] at h1
  exact ⟨h1.1.symm, h1.2.symm⟩

example : strconvQuote (fun _ => true) (gs! "a") ≠ strconvQuote (fun _ => true) (gs! "b") := by decide +kernel

theorem plainText_quoteLoop (hi : Nat → Bool) {s out : GoStr} (h : Pieces s out) : ∀ c ∈ out, c ≠ 10 := by
  have hx : ∀ w n, ∀ c ∈ hexDigits w n, c ≠ 10 := by
    intro w n c hc e
    subst e
    induction w with
    | zero => simp [hexDigits] at hc
    | succ w ih =>
      simp only [hexDigits, List.mem_cons] at hc
      rcases hc with hc | hc
      · have : ∀ n : Fin 16, (10 : UInt8) ≠ hexDigit n.val := by decide
        exact this ⟨_, Nat.mod_lt _ (by omega)⟩ hc
      · exact ih hc
  induction h with
  | nil => simp
  | byte _ ih =>
    intro c hc
    simp only [List.cons_append, List.mem_cons, List.mem_append] at hc
    rcases hc with rfl | rfl | hc | hc
    · decide
    · decide
    · exact hx _ _ c hc
    · exact ih c hc
  | esc hv hs _ ih =>
    intro c hc
    rw [List.mem_append] at hc
    rcases hc with hc | hc
    · cases hs with
      | self h =>
        rcases h with rfl | rfl <;> (simp at hc; rcases hc with rfl | rfl <;> decide)
      | letter h =>
        simp at h hc
        rcases h with ⟨rfl, _⟩ | ⟨rfl, _⟩ | ⟨rfl, _⟩ | ⟨rfl, _⟩ | ⟨rfl, _⟩ | ⟨rfl, _⟩ | ⟨rfl, _⟩ <;>
          (rcases hc with rfl | rfl <;> decide)
      | x => simp only [List.mem_cons] at hc; rcases hc with rfl | rfl | hc; (· decide); (· decide); exact hx _ _ c hc
      | u => simp only [List.mem_cons] at hc; rcases hc with rfl | rfl | hc; (· decide); (· decide); exact hx _ _ c hc
      | U => simp only [List.mem_cons] at hc; rcases hc with rfl | rfl | hc; (· decide); (· decide); exact hx _ _ c hc
      | raw h1 h2 h3 => exact encodeRune_avoid hv (n := 10) (by decide) h3 c hc
    · exact ih c hc

/-- A quoted string never contains a newline, so it stays within its row. -/
theorem C34_oneLine (hi : Nat → Bool) (s : GoStr) : 10 ∉ strconvQuote hi s := by
  intro h
  simp only [strconvQuote, List.cons_append, List.mem_cons, List.mem_append, List.not_mem_nil, or_false] at h
  rcases h with h | h | h
  · exact absurd h (by decide)
  · exact plainText_quoteLoop hi (quoteLoop_pieces hi s) 10 h rfl
  · exact absurd h (by decide)

example : (10 : UInt8) ∈ gs! "a\nb" ∧ (10 : UInt8) ∉ strconvQuote (fun _ => true) (gs! "a\nb") := by decide +kernel

end Verif
