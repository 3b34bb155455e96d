import Verif.Model.Scan
import Verif.Lemmas.Quote

/-!
# Lemmas about reading quoted text
-/

namespace Verif

theorem scanQuoted_plain (p tail : GoStr) (h : ∀ c ∈ p, c ≠ 34 ∧ c ≠ 92) :
    scanQuoted (p ++ tail) = (scanQuoted tail).map fun (tok, rest) => (p ++ tok, rest) := by
  induction p with
  | nil => simp
  | cons c cs ih =>
    have h1 := h c (List.mem_cons_self ..)
    rw [List.cons_append, scanQuoted.eq_def]
    simp only
    rw [if_neg h1.1, if_neg h1.2, ih (fun d hd => h d (List.mem_cons_of_mem _ hd))]
    cases scanQuoted tail <;> simp

theorem scanQuoted_escape (d : UInt8) (p tail : GoStr) (h : ∀ c ∈ p, c ≠ 34 ∧ c ≠ 92) :
    scanQuoted (92 :: d :: p ++ tail) = (scanQuoted tail).map fun (tok, rest) => (92 :: d :: p ++ tok, rest) := by
  simp only [List.cons_append]
  rw [scanQuoted.eq_def]
  simp only
  rw [if_neg (by decide), if_pos trivial, scanQuoted_plain p tail h]
  cases scanQuoted tail <;> simp

theorem hexDigits_quoted (w n : Nat) : ∀ c ∈ hexDigits w n, c ≠ 34 ∧ c ≠ 92 := fun c hc =>
  ⟨(hexDigits_plain w n c hc).1, (hexDigits_plain w n c hc).2.1⟩

/-- The bytes of a code point other than `n` do not contain the ASCII character `n`. -/
theorem encodeRune_avoid {r : Nat} (hv : ValidRune r) {n : UInt8} (hn : n.toNat < 0x80) (h : r ≠ n.toNat) : ∀ c ∈ encodeRune r, c ≠ n := by
  rcases encodeRune_bytes r hv with ⟨hs, he⟩ | ⟨hs, hne, hb⟩
  · rw [he]
    intro c hc e
    simp only [List.mem_singleton] at hc
    subst hc
    have := congrArg UInt8.toNat e
    rw [u8_toNat_ofNat (by omega)] at this
    exact h this
  · intro c hc e
    have := hb c hc
    subst e
    omega

theorem EscShape.scanQuoted {r : Nat} {p : GoStr} (h : EscShape 34 r p) (hv : ValidRune r) (tail : GoStr) :
    scanQuoted (p ++ tail) = (Verif.scanQuoted tail).map fun (tok, rest) => (p ++ tok, rest) := by
  cases h with
  | self => exact scanQuoted_escape _ [] tail (by simp)
  | letter => exact scanQuoted_escape _ [] tail (by simp)
  | x => exact scanQuoted_escape _ _ tail (hexDigits_quoted _ _)
  | u => exact scanQuoted_escape _ _ tail (hexDigits_quoted _ _)
  | U => exact scanQuoted_escape _ _ tail (hexDigits_quoted _ _)
  | raw h1 h2 _ =>
    exact scanQuoted_plain _ tail fun c hc =>
      ⟨encodeRune_avoid hv (n := 34) (by decide) h1 c hc, encodeRune_avoid hv (n := 92) (by decide) h2 c hc⟩

theorem scanQuoted_pieces {s out : GoStr} (h : Pieces s out) (rest : GoStr) : scanQuoted (out ++ 34 :: rest) = some (out ++ [34], rest) := by
  induction h with
  | nil => rw [List.nil_append, scanQuoted.eq_def]; simp
  | esc hv hs _ ih => rw [List.append_assoc, hs.scanQuoted hv, ih]; simp
  | byte _ ih => rw [List.append_assoc, scanQuoted_escape _ _ _ (hexDigits_quoted _ _), ih]; simp

theorem readString_quote (hi : Nat → Bool) (s rest : GoStr) : readString (strconvQuote hi s ++ rest) = .ok (s, rest) := by
  have hp := quoteLoop_pieces hi s
  have e : strconvQuote hi s ++ rest = 34 :: (quoteLoop hi 0 s ++ 34 :: rest) := by simp [strconvQuote]
  rw [e]
  simp only [readString]
  rw [scanQuoted_pieces hp]
  simp only [strconvUnquote]
  rw [unquoteLoop_pieces hp [] _ (by simp; omega)]

theorem splitFirst_append (p rest : GoStr) (h : ∀ c ∈ p, c ≠ 39) : splitFirst (p ++ 39 :: rest) = some (p, rest) := by
  induction p with
  | nil => simp [splitFirst]
  | cons c cs ih =>
    rw [List.cons_append, splitFirst, if_neg (h c (List.mem_cons_self ..)), ih (fun d hd => h d (List.mem_cons_of_mem _ hd))]
    simp

theorem charWidth_backslash (l : GoStr) : charWidth (92 :: l) = 1 := by
  simp [charWidth, decodeRune?]

theorem hexDigits_quote (w n : Nat) : ∀ c ∈ hexDigits w n, c ≠ 39 := fun c hc => (hexDigits_plain w n c hc).2.2

theorem runeBody_escape (d : UInt8) (p rest : GoStr) (hd : d ≠ 39) (hn : d ≠ 110) (h92 : d = 92 → p = []) (h : ∀ c ∈ p, c ≠ 39) :
    runeBody (92 :: d :: p ++ 39 :: rest) = some (92 :: d :: p, rest) := by
  have hl : runeLong (92 :: d :: p ++ 39 :: rest) = none := by
    simp only [List.cons_append, runeLong, charWidth_backslash]
    rw [if_neg (by decide)]
    simp only [List.drop_succ_cons, List.drop_zero]
    by_cases hd92 : d = 92
    · subst hd92
      rw [h92 rfl]
      simp
    · split
      · rename_i heq
        simp only [List.cons.injEq] at heq
        exact absurd heq.1 hd92
      · rfl
  have hs : splitFirst (92 :: d :: p ++ 39 :: rest) = some (92 :: d :: p, rest) :=
    splitFirst_append (92 :: d :: p) rest (by
      intro c hc
      simp only [List.mem_cons] at hc
      rcases hc with rfl | rfl | hc
      · decide
      · exact hd
      · exact h c hc)
  simp only [List.cons_append] at hl hs ⊢
  rw [runeBody]
  · rw [hl, hs]
  · intro rest' e
    simp only [List.cons.injEq] at e
    exact hn e.2.1
  · intro rest' e
    simp only [List.cons.injEq] at e
    exact hd e.2.1

theorem EscShape.runeBody {r : Nat} {p : GoStr} (h : EscShape 39 r p) (hv : ValidRune r) (rest : GoStr) :
    runeBody (p ++ 39 :: rest) = some (p, rest) := by
  cases h with
  | self h =>
    rcases h with rfl | rfl
    · rfl
    · exact runeBody_escape 92 [] rest (by decide) (by decide) (by simp) (by simp)
  | letter h =>
    simp at h
    rcases h with ⟨rfl, rfl⟩ | ⟨rfl, rfl⟩ | ⟨rfl, rfl⟩ | ⟨rfl, rfl⟩ | ⟨rfl, rfl⟩ | ⟨rfl, rfl⟩ | ⟨rfl, rfl⟩
    · exact runeBody_escape _ [] rest (by decide) (by decide) (by simp) (by simp)
    · exact runeBody_escape _ [] rest (by decide) (by decide) (by simp) (by simp)
    · exact runeBody_escape _ [] rest (by decide) (by decide) (by simp) (by simp)
    · rfl
    · exact runeBody_escape _ [] rest (by decide) (by decide) (by simp) (by simp)
    · exact runeBody_escape _ [] rest (by decide) (by decide) (by simp) (by simp)
    · exact runeBody_escape _ [] rest (by decide) (by decide) (by simp) (by simp)
  | x => exact runeBody_escape _ _ rest (by decide) (by decide) (fun e => absurd e (by decide)) (hexDigits_quote _ _)
  | u => exact runeBody_escape _ _ rest (by decide) (by decide) (fun e => absurd e (by decide)) (hexDigits_quote _ _)
  | U => exact runeBody_escape _ _ rest (by decide) (by decide) (fun e => absurd e (by decide)) (hexDigits_quote _ _)
  | raw h1 h2 _ =>
    have a39 := encodeRune_avoid hv (n := 39) (by decide) h1
    have a92 := encodeRune_avoid hv (n := 92) (by decide) h2
    have hs := splitFirst_append _ rest a39
    have hd := decode_encode hv (39 :: rest)
    have hne : encodeRune r ≠ [] := by
      rcases encodeRune_bytes r hv with ⟨_, he⟩ | ⟨_, hne, _⟩
      · rw [he]; simp
      · exact hne
    generalize encodeRune r = p at *
    cases p with
    | nil => exact absurd rfl hne
    | cons c cs =>
      have c39 := a39 c (List.mem_cons_self ..)
      have c92 := a92 c (List.mem_cons_self ..)
      have hl : runeLong (c :: cs ++ 39 :: rest) = none := by
        have hw : charWidth (c :: cs ++ 39 :: rest) = (c :: cs).length := by simp only [charWidth, hd]
        simp only [List.cons_append] at hw ⊢
        simp only [runeLong, if_neg c39, hw]
        have : (c :: (cs ++ 39 :: rest)).drop (c :: cs).length = 39 :: rest := by
          have := List.drop_left (l₁ := c :: cs) (l₂ := 39 :: rest)
          simpa using this
        rw [this]
        rfl
      simp only [List.cons_append] at hl hs ⊢
      rw [Verif.runeBody]
      · rw [hl, hs]
      · intro rest' e
        simp only [List.cons.injEq] at e
        exact c92 e.1
      · intro rest' e
        simp only [List.cons.injEq] at e
        exact c92 e.1

theorem readRune_quote (hi : Nat → Bool) (r : Nat) (hv : ValidRune r) (rest : GoStr) :
    readRune (strconvQuoteRune hi r ++ rest) = .ok ((r : Int), rest) := by
  have hs := escapeRune_shape hi 39 r
  have e : strconvQuoteRune hi r ++ rest = 39 :: (escapeRune hi 39 r ++ 39 :: rest) := by
    simp [strconvQuoteRune, hv]
  rw [e]
  have hb := hs.runeBody hv rest
  simp only [readRune, scanRune, splitFirst, if_pos]
  rw [hb]
  have hne := hs.ne_nil hv
  obtain ⟨mb, hu, _⟩ := unquoteChar_esc hs hv (.inr rfl) []
  rw [List.append_nil] at hu
  have hlen : ¬ (escapeRune hi 39 r).length + 2 < 3 := by
    cases he : escapeRune hi 39 r with
    | nil => exact absurd he hne
    | cons => simp
  simp only [if_neg hlen, parseRune]
  have : (UInt8.ofNat 39) = 39 := rfl
  rw [this] at hu
  rw [hu]
  simp [Out.bind]

end Verif
