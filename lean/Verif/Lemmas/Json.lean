import Verif.Spec.Json
import Verif.Lemmas.Quote
import Verif.Lemmas.GoFloat

/-!
# Lemmas on JSON texts
-/

namespace Verif
open FloatFmt

/-! ## Strings -/

theorem quoteLoop_rune (hi : Nat → Bool) {r : Nat} (hv : ValidRune r) (s : GoStr) :
    quoteLoop hi 0 (encodeRune r ++ s) = escapeRune hi 34 r ++ quoteLoop hi 0 s := by
  have hd := decode_encode hv s
  cases he : encodeRune r with
  | nil =>
    rcases encodeRune_bytes r hv with ⟨_, h⟩ | ⟨_, h, _⟩
    · rw [h] at he; simp at he
    · exact absurd he h
  | cons c cs =>
    rw [he] at hd
    simp only [List.cons_append] at hd ⊢
    rw [quoteLoop, hd]
    simp only
    rw [quoteLoop_skip]
    simp

/-- One code point in a JSON string. -/
theorem jsonChars_rune (hi : Nat → Bool) {r : Nat} (h : JsonRune hi r) (n : Nat) (tail : GoStr) :
    jsonChars (n + 1) (escapeRune hi 34 r ++ tail) = (jsonChars n tail).map fun (bs, rest) => (encodeRune r ++ bs, rest) := by
  obtain ⟨hv, h⟩ := h
  have small : ∀ k, k < 0x80 → encodeRune k = [UInt8.ofNat k] := by
    intro k hk
    unfold encodeRune
    simp only [if_pos (show ValidRune k from .inl (by omega)), if_pos hk]
  unfold escapeRune
  by_cases h1 : r = 34 ∨ r = 92
  · rw [if_pos h1]
    rcases h1 with rfl | rfl
    · rw [small 34 (by omega)]
      simp [jsonChars, jsonEscape]
    · rw [small 92 (by omega)]
      simp [jsonChars, jsonEscape]
  rw [if_neg h1]
  by_cases h2 : isPrint hi r = true
  · rw [if_pos h2]
    by_cases hs : r < 0x80
    · have hr : 32 ≤ r := by
        unfold isPrint at h2
        rw [if_pos (by omega)] at h2
        simp at h2; omega
      have t0 := u8_toNat_ofNat (show r < 256 by omega)
      have n1 : UInt8.ofNat r ≠ 34 := fun e => by
        have := congrArg UInt8.toNat e; rw [t0] at this; exact h1 (.inl this)
      have n2 : UInt8.ofNat r ≠ 92 := fun e => by
        have := congrArg UInt8.toNat e; rw [t0] at this; exact h1 (.inr this)
      have n3 : ¬ UInt8.ofNat r < 32 := by
        rw [UInt8.lt_iff_toNat_lt, t0]; simpa using hr
      have n4 : UInt8.ofNat r < 0x80 := by
        rw [UInt8.lt_iff_toNat_lt, t0]; simpa using hs
      rw [small r hs]
      simp only [List.cons_append, List.nil_append, jsonChars, if_neg n1, if_neg n2, if_neg n3, if_pos n4]
    · rcases encodeRune_bytes r hv with ⟨hs', _⟩ | ⟨_, hne, hb⟩
      · omega
      have hd := decode_encode hv tail
      cases he : encodeRune r with
      | nil => exact absurd he hne
      | cons c cs =>
        have hc := hb c (by rw [he]; simp)
        rw [he] at hd
        simp only [List.cons_append] at hd ⊢
        have n1 : c ≠ 34 := fun e => by rw [e] at hc; revert hc; decide
        have n2 : c ≠ 92 := fun e => by rw [e] at hc; revert hc; decide
        have hc' : 0x80 ≤ c.toNat := by simpa [UInt8.le_iff_toNat_le] using hc
        have n3 : ¬ c < 32 := by rw [UInt8.lt_iff_toNat_lt]; simp; omega
        have n4 : ¬ c < 0x80 := by rw [UInt8.lt_iff_toNat_lt]; simp; omega
        simp only [jsonChars, if_neg n1, if_neg n2, if_neg n3, if_neg n4, hd]
        simp
  rw [if_neg h2]
  have hletter : ∀ (k : Nat) (c : UInt8), r = k → jsonEscape (c :: tail) = some ([UInt8.ofNat k], tail) → k < 0x80 →
      jsonChars (n + 1) ([92, c] ++ tail) = (jsonChars n tail).map fun (bs, rest) => (encodeRune r ++ bs, rest) := by
    intro k c hk he hlt
    subst hk
    rw [small r hlt]
    simp only [List.cons_append, List.nil_append, jsonChars, he]
    simp
  by_cases h7 : r = 7
  · subst h7; simp at h
  rw [if_neg h7]
  by_cases h8 : r = 8
  · rw [if_pos h8]; exact hletter 8 98 h8 (by simp [jsonEscape]) (by omega)
  rw [if_neg h8]
  by_cases h12 : r = 12
  · rw [if_pos h12]; exact hletter 12 102 h12 (by simp [jsonEscape]) (by omega)
  rw [if_neg h12]
  by_cases h10 : r = 10
  · rw [if_pos h10]; exact hletter 10 110 h10 (by simp [jsonEscape]) (by omega)
  rw [if_neg h10]
  by_cases h13 : r = 13
  · rw [if_pos h13]; exact hletter 13 114 h13 (by simp [jsonEscape]) (by omega)
  rw [if_neg h13]
  by_cases h9 : r = 9
  · rw [if_pos h9]; exact hletter 9 116 h9 (by simp [jsonEscape]) (by omega)
  rw [if_neg h9]
  by_cases h11 : r = 11
  · subst h11; simp at h
  rw [if_neg h11]
  by_cases hx : r < 32 ∨ r = 127
  · omega
  rw [if_neg hx]
  have hu : r < 0x10000 := by
    have : r < 0x10000 ∨ hi r = true := by
      rcases h with h | h | h | h | h | h
      all_goals first | exact h.2.2 | (left; omega)
    rcases this with h | h
    · exact h
    · by_cases hr : r ≤ 0xFF
      · omega
      · simp [isPrint, hr, h] at h2
  rw [if_pos hu]
  have hh := readHex_hexDigits 4 r 0 tail
  rw [show 0 * 16 ^ 4 + r % 16 ^ 4 = r by omega] at hh
  have hns : ¬ (0xD800 ≤ r ∧ r < 0xDC00) := by unfold ValidRune at hv; omega
  simp only [List.cons_append, jsonChars, jsonEscape, jsonHex, hh, if_neg hns]
  simp

/-- A code point that is written in a way that JSON does not allow. -/
theorem jsonChars_bad (hi : Nat → Bool) {r : Nat} (hv : ValidRune r) (h : ¬ JsonRune hi r) (n : Nat) (tail : GoStr) :
    jsonChars n (escapeRune hi 34 r ++ tail) = none := by
  have h' : r ≠ 8 ∧ r ≠ 9 ∧ r ≠ 10 ∧ r ≠ 12 ∧ r ≠ 13 ∧ ¬ (32 ≤ r ∧ r ≠ 127 ∧ (r < 0x10000 ∨ hi r = true)) := by
    refine ⟨?_, ?_, ?_, ?_, ?_, ?_⟩ <;> (intro e; exact h ⟨hv, by simp [e]⟩)
  obtain ⟨h8, h9, h10, h12, h13, h'⟩ := h'
  have hnp : ¬ isPrint hi r = true := by
    intro hp
    unfold isPrint at hp
    split at hp
    · simp at hp; omega
    · exact h' ⟨by omega, by omega, .inr hp⟩
  have h1 : ¬ (r = 34 ∨ r = 92) := by
    rintro (rfl | rfl) <;> simp at h'
  unfold escapeRune
  rw [if_neg h1, if_neg hnp, if_neg h8, if_neg h12, if_neg h10, if_neg h13, if_neg h9]
  cases n with
  | zero => rfl
  | succ n =>
    split
    · simp [jsonChars, jsonEscape]
    split
    · simp [jsonChars, jsonEscape]
    split
    · simp [jsonChars, jsonEscape]
    split
    · rename_i q1 q2 q3 q4
      exact absurd ⟨by omega, by omega, .inl q4⟩ h'
    · simp [jsonChars, jsonEscape]

/-- A byte that is not part of a code point. -/
theorem jsonChars_byte (c : UInt8) (n : Nat) (tail : GoStr) : jsonChars n (92 :: 120 :: hexDigits 2 c.toNat ++ tail) = none := by
  cases n with
  | zero => rfl
  | succ n => simp [jsonChars, jsonEscape]

theorem jsonChars_text (hi : Nat → Bool) (s : GoStr) (h : JsonText hi s) (n : Nat) (hn : (quoteLoop hi 0 s).length < n) (rest : GoStr) :
    jsonChars n (quoteLoop hi 0 s ++ 34 :: rest) = some (s, rest) := by
  obtain ⟨rs, rfl, hrs⟩ := h
  induction rs generalizing n with
  | nil =>
    cases n with
    | zero => simp at hn
    | succ n => simp [quoteLoop, jsonChars]
  | cons r rs ih =>
    have hr := hrs r (by simp)
    simp only [List.map_cons, List.flatten_cons] at hn ⊢
    rw [quoteLoop_rune hi hr.1] at hn ⊢
    have hne := (escapeRune_shape hi 34 r).ne_nil hr.1
    have := List.length_pos_iff.2 hne
    simp only [List.length_append] at hn
    cases n with
    | zero => omega
    | succ n =>
      rw [List.append_assoc, jsonChars_rune hi hr, ih n (fun x hx => hrs x (by simp [hx])) (by omega)]
      rfl

/-- A string is written in a way that JSON allows exactly if all its code points are. -/
theorem jsonChars_not (hi : Nat → Bool) (s : GoStr) (h : ¬ JsonText hi s) (n : Nat) (rest : GoStr) :
    jsonChars n (quoteLoop hi 0 s ++ rest) = none := by
  suffices ∀ k, ∀ s : GoStr, s.length ≤ k → ¬ JsonText hi s → ∀ n, jsonChars n (quoteLoop hi 0 s ++ rest) = none from this s.length s (Nat.le_refl _) h n
  clear h n s
  intro k
  induction k with
  | zero =>
    intro s hs h
    cases s with
    | nil => exact absurd ⟨[], rfl, by simp⟩ h
    | cons => simp at hs
  | succ k ih =>
    intro s hs h n
    cases s with
    | nil => exact absurd ⟨[], rfl, by simp⟩ h
    | cons c cs =>
      cases hd : decodeRune? (c :: cs) with
      | none =>
        rw [quoteLoop, hd]
        simp only [List.append_assoc]
        exact jsonChars_byte c n _
      | some p =>
        obtain ⟨r, w⟩ := p
        obtain ⟨hv, hw, tail, hl⟩ := encode_decode hd
        rw [hl, quoteLoop_rune hi hv, List.append_assoc]
        by_cases hr : JsonRune hi r
        · cases n with
          | zero => rfl
          | succ n =>
            rw [jsonChars_rune hi hr, ih tail ?_ ?_ n]
            · rfl
            · have hlen := congrArg List.length hl
              have hpos : 0 < (encodeRune r).length := by
                rw [List.length_pos_iff]
                rcases encodeRune_bytes r hv with ⟨_, he⟩ | ⟨_, hne, _⟩
                · rw [he]; simp
                · exact hne
              simp only [List.length_cons, List.length_append] at hlen hs
              omega
            · rintro ⟨rs, e, hrs⟩
              exact h ⟨r :: rs, by rw [hl, e]; simp, by simpa using ⟨hr, hrs⟩⟩
        · exact jsonChars_bad hi hv hr n _


/-! ## Values -/

mutual

/-- The text of a value, without white space. -/
def JVal.render (hi : Nat → Bool) : JVal → GoStr
  | .null => gs! "null"
  | .bool b => if b then gs! "true" else gs! "false"
  | .num t => t
  | .str s => strconvQuote hi s
  | .arr l => 91 :: renderElems hi l ++ [93]
  | .obj m => 123 :: renderMembers hi m ++ [125]

def renderElems (hi : Nat → Bool) : List JVal → GoStr
  | [] => []
  | v :: vs => v.render hi ++ renderMore hi vs

def renderMore (hi : Nat → Bool) : List JVal → GoStr
  | [] => []
  | v :: vs => 44 :: v.render hi ++ renderMore hi vs

def renderMembers (hi : Nat → Bool) : List (GoStr × JVal) → GoStr
  | [] => []
  | (k, v) :: m => strconvQuote hi k ++ 58 :: v.render hi ++ renderMoreMembers hi m

def renderMoreMembers (hi : Nat → Bool) : List (GoStr × JVal) → GoStr
  | [] => []
  | (k, v) :: m => 44 :: strconvQuote hi k ++ 58 :: v.render hi ++ renderMoreMembers hi m

end

/-- What follows a value within an array or object. -/
def Ends (rest : GoStr) : Prop := rest = [] ∨ ∃ c cs, rest = c :: cs ∧ (c = 44 ∨ c = 93 ∨ c = 125)

/-- The text of a number: read as such, whatever follows. -/
def JsonNum (t : GoStr) : Prop :=
  (∃ c cs, t = c :: cs ∧ (c = 45 ∨ (48 ≤ c ∧ c ≤ 57))) ∧ ∀ rest, Ends rest → jsonNumber (t ++ rest) = some (t, rest)

mutual

/-- Strings and numbers are such that they can be read back. -/
def JVal.Good (hi : Nat → Bool) : JVal → Prop
  | .null => True
  | .bool _ => True
  | .num t => JsonNum t
  | .str s => JsonText hi s
  | .arr l => GoodElems hi l
  | .obj m => GoodMembers hi m

def GoodElems (hi : Nat → Bool) : List JVal → Prop
  | [] => True
  | v :: vs => v.Good hi ∧ GoodElems hi vs

def GoodMembers (hi : Nat → Bool) : List (GoStr × JVal) → Prop
  | [] => True
  | (k, v) :: m => JsonText hi k ∧ v.Good hi ∧ GoodMembers hi m

end

theorem goodElems_iff (hi : Nat → Bool) (l : List JVal) : GoodElems hi l ↔ ∀ v ∈ l, v.Good hi := by
  induction l with
  | nil => simp [GoodElems]
  | cons v vs ih => simp [GoodElems, ih]

theorem goodMembers_iff (hi : Nat → Bool) (m : List (GoStr × JVal)) : GoodMembers hi m ↔ ∀ p ∈ m, JsonText hi p.1 ∧ p.2.Good hi := by
  induction m with
  | nil => simp [GoodMembers]
  | cons p vs ih => obtain ⟨k, v⟩ := p; simp [GoodMembers, ih, and_assoc]

theorem jsonSpace_cons {c : UInt8} {cs : GoStr} (h : ¬ (c = 32 ∨ c = 9 ∨ c = 10 ∨ c = 13)) : jsonSpace (c :: cs) = c :: cs := by
  rw [jsonSpace, if_neg h]

theorem strconvQuote_eq (hi : Nat → Bool) (s : GoStr) : strconvQuote hi s = 34 :: (quoteLoop hi 0 s ++ [34]) := by
  rfl

theorem jsonChars_quote (hi : Nat → Bool) (s : GoStr) (h : JsonText hi s) (rest : GoStr) :
    jsonChars ((quoteLoop hi 0 s ++ 34 :: rest).length + 1) (quoteLoop hi 0 s ++ 34 :: rest) = some (s, rest) :=
  jsonChars_text hi s h _ (by simp only [List.length_append, List.length_cons]; omega) rest

/-- The first byte of a value. -/
theorem render_head (hi : Nat → Bool) (v : JVal) (hv : v.Good hi) : ∃ c cs, v.render hi = c :: cs ∧ ¬ (c = 32 ∨ c = 9 ∨ c = 10 ∨ c = 13) ∧ c ≠ 125 ∧ c ≠ 93 := by
  cases v with
  | null => exact ⟨110, _, rfl, by decide, by decide, by decide⟩
  | bool b =>
    cases b with
    | true => exact ⟨116, _, rfl, by decide, by decide, by decide⟩
    | false => exact ⟨102, _, rfl, by decide, by decide, by decide⟩
  | num t =>
    obtain ⟨⟨c, cs, e, h⟩, _⟩ := hv
    refine ⟨c, cs, e, ?_, ?_, ?_⟩
    · rcases h with rfl | ⟨h1, h2⟩
      · decide
      · rintro (rfl | rfl | rfl | rfl) <;> revert h1 <;> decide
    · rcases h with rfl | ⟨h1, h2⟩
      · decide
      · rintro rfl; revert h2; decide
    · rcases h with rfl | ⟨h1, h2⟩
      · decide
      · rintro rfl; revert h2; decide
  | str s => exact ⟨34, _, strconvQuote_eq hi s, by decide, by decide, by decide⟩
  | arr l => exact ⟨91, _, rfl, by decide, by decide, by decide⟩
  | obj m => exact ⟨123, _, rfl, by decide, by decide, by decide⟩

theorem ends_cons {c : UInt8} {cs : GoStr} (h : c = 44 ∨ c = 93 ∨ c = 125) : Ends (c :: cs) := .inr ⟨c, cs, rfl, h⟩

mutual

/-- The text of a value is read back as that value. -/
theorem jsonValue_render (hi : Nat → Bool) : (v : JVal) → v.Good hi → ∀ (n : Nat) (rest : GoStr), 2 * (v.render hi).length + 1 ≤ n → Ends rest →
    jsonValue n (v.render hi ++ rest) = some (v, rest)
  | .null, _, n + 1, rest, _, _ => by
    simp only [JVal.render, List.cons_append, List.nil_append, jsonValue]
    rw [jsonSpace_cons (by decide)]
    simp [jsonLiteral]
  | .bool true, _, n + 1, rest, _, _ => by
    simp only [JVal.render, if_true, List.cons_append, List.nil_append, jsonValue]
    rw [jsonSpace_cons (by decide)]
    simp [jsonLiteral]
  | .bool false, _, n + 1, rest, _, _ => by
    simp only [JVal.render, jsonValue]
    simp [jsonLiteral, jsonSpace]
  | .num t, h, n + 1, rest, _, hr => by
    obtain ⟨⟨c, cs, e, hc⟩, hnum⟩ := h
    have := hnum rest hr
    simp only [JVal.render, jsonValue]
    rw [e, List.cons_append] at this ⊢
    have h1 : ¬ (c = 32 ∨ c = 9 ∨ c = 10 ∨ c = 13) := by
      rcases hc with rfl | ⟨h1, h2⟩
      · decide
      · rintro (rfl | rfl | rfl | rfl) <;> revert h1 <;> decide
    have hne : ∀ d : UInt8, 57 < d → c ≠ d := by
      intro d hd e'
      subst e'
      rcases hc with rfl | ⟨_, h2⟩
      · revert hd; decide
      · exact absurd (UInt8.lt_of_lt_of_le hd h2) (by simp)
    have h34 : c ≠ 34 := by
      rintro rfl
      rcases hc with h | ⟨h, _⟩ <;> revert h <;> decide
    rw [jsonSpace_cons h1]
    simp only [if_neg (hne 123 (by decide)), if_neg (hne 91 (by decide)), if_neg h34, if_neg (hne 116 (by decide)), if_neg (hne 102 (by decide)),
      if_neg (hne 110 (by decide)), this]
    rfl
  | .str s, h, n + 1, rest, _, _ => by
    simp only [JVal.render, strconvQuote_eq, List.cons_append, jsonValue]
    rw [jsonSpace_cons (by decide)]
    have := jsonChars_quote hi s h rest
    simp only [List.append_assoc, List.cons_append, List.nil_append]
    simp only [show ¬ ((34 : UInt8) = 123) by decide, show ¬ ((34 : UInt8) = 91) by decide, if_false, if_true, this]
    rfl
  | .arr [], _, n + 1, rest, _, _ => by
    simp [JVal.render, renderElems, jsonValue, jsonSpace]
  | .arr (v :: vs), h, n + 1, rest, hn, _ => by
    have hv : v.Good hi := h.1
    obtain ⟨c, cs, e, h1, _, h93⟩ := render_head hi v hv
    have := jsonElems_render hi v vs hv h.2 n rest (by
      simp only [JVal.render, List.length_cons, List.length_append, List.length_nil] at hn; omega)
    simp only [JVal.render, List.cons_append, jsonValue, List.append_assoc, List.nil_append]
    rw [jsonSpace_cons (by decide)]
    simp only [show ¬ ((91 : UInt8) = 123) by decide, if_false, if_true]
    simp only [renderElems, List.append_assoc] at this ⊢
    rw [e, List.cons_append] at this ⊢
    rw [jsonSpace_cons h1]
    split
    · rename_i heq; simp only [List.cons.injEq] at heq; exact absurd heq.1 h93
    · rw [this]; rfl
  | .obj [], _, n + 1, rest, _, _ => by
    simp [JVal.render, renderMembers, jsonValue, jsonSpace]
  | .obj ((k, v) :: m), h, n + 1, rest, hn, _ => by
    have := jsonMembers_render hi k v m h.1 h.2.1 h.2.2 n rest (by
      simp only [JVal.render, List.length_cons, List.length_append, List.length_nil] at hn; omega)
    simp only [JVal.render, List.cons_append, jsonValue, List.append_assoc, List.nil_append]
    rw [jsonSpace_cons (by decide)]
    simp only [if_true]
    simp only [renderMembers, strconvQuote_eq, List.append_assoc, List.cons_append] at this ⊢
    rw [jsonSpace_cons (by decide)]
    split
    · rename_i heq; simp at heq
    · rw [this]; rfl
termination_by v => sizeOf v

theorem jsonElems_render (hi : Nat → Bool) : (v : JVal) → (vs : List JVal) → v.Good hi → GoodElems hi vs → ∀ (n : Nat) (rest : GoStr),
    2 * (renderElems hi (v :: vs)).length + 2 ≤ n → jsonElems n (renderElems hi (v :: vs) ++ 93 :: rest) = some (v :: vs, rest)
  | v, [], hv, _, n + 1, rest, hn => by
    simp only [renderElems, renderMore, List.append_nil] at hn ⊢
    rw [jsonElems, jsonValue_render hi v hv n (93 :: rest) (by omega) (ends_cons (by simp))]
    simp [jsonSpace]
  | v, w :: ws, hv, hw, n + 1, rest, hn => by
    have := jsonElems_render hi w ws hw.1 hw.2 n rest (by
      simp only [renderElems, renderMore, List.length_append, List.length_cons] at hn ⊢; omega)
    simp only [renderElems, renderMore, List.append_assoc, List.cons_append, List.length_append, List.length_cons] at hn this ⊢
    rw [jsonElems, jsonValue_render hi v hv n _ (by omega) (ends_cons (by simp))]
    simp only
    rw [jsonSpace_cons (by decide)]
    simp [this]
termination_by v vs => sizeOf v + sizeOf vs

theorem jsonMembers_render (hi : Nat → Bool) : (k : GoStr) → (v : JVal) → (m : List (GoStr × JVal)) → JsonText hi k → v.Good hi → GoodMembers hi m →
    ∀ (n : Nat) (rest : GoStr), 2 * (renderMembers hi ((k, v) :: m)).length + 2 ≤ n →
    jsonMembers n (renderMembers hi ((k, v) :: m) ++ 125 :: rest) = some ((k, v) :: m, rest)
  | k, v, [], hk, hv, _, n + 1, rest, hn => by
    simp only [renderMembers, renderMoreMembers, List.append_nil, List.length_append, List.length_cons] at hn
    simp only [renderMembers, renderMoreMembers, List.append_nil, strconvQuote_eq, List.append_assoc, List.cons_append, List.nil_append]
    rw [jsonMembers, jsonSpace_cons (by decide)]
    simp only [if_true]
    rw [jsonChars_quote hi k hk]
    simp only
    rw [jsonSpace_cons (by decide)]
    simp only [if_true]
    rw [jsonValue_render hi v hv n (125 :: rest) (by omega) (ends_cons (by simp))]
    simp [jsonSpace]
  | k, v, (k2, w) :: ws, hk, hv, hw, n + 1, rest, hn => by
    have := jsonMembers_render hi k2 w ws hw.1 hw.2.1 hw.2.2 n rest (by
      simp only [renderMembers, renderMoreMembers, List.length_append, List.length_cons] at hn ⊢; omega)
    simp only [renderMembers, renderMoreMembers, List.length_append, List.length_cons] at hn
    simp only [renderMembers, renderMoreMembers, strconvQuote_eq, List.append_assoc, List.cons_append, List.nil_append] at this ⊢
    rw [jsonMembers, jsonSpace_cons (by decide)]
    simp only [if_true]
    rw [jsonChars_quote hi k hk]
    simp only
    rw [jsonSpace_cons (by decide)]
    simp only [if_true]
    rw [jsonValue_render hi v hv n _ (by omega) (ends_cons (by simp))]
    simp only
    rw [jsonSpace_cons (by decide)]
    simp [this]
termination_by _ v m => sizeOf v + sizeOf m

end

/-- The text of an object is decoded to its members. -/
theorem jsonDecode_render (hi : Nat → Bool) (m : List (GoStr × JVal)) (h : GoodMembers hi m) : jsonDecode ((JVal.obj m).render hi) = some m := by
  have := jsonValue_render hi (.obj m) h (2 * ((JVal.obj m).render hi).length + 2) [] (by omega) (.inl rfl)
  rw [List.append_nil] at this
  rw [jsonDecode, this]

end Verif
