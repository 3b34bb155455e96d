import Verif.Go.JsonIndent
import Verif.Lemmas.Json

/-!
# Indented JSON is read like the text it was made from
-/

namespace Verif

/-! ### Strings -/

/-- The bytes between the quotes of a string: no quote without a backslash before it. -/
inductive StrBody : GoStr → Prop where
  | nil : StrBody []
  | plain {c : UInt8} {cs : GoStr} : c ≠ 34 → c ≠ 92 → StrBody cs → StrBody (c :: cs)
  | esc {e : UInt8} {cs : GoStr} : StrBody cs → StrBody (92 :: e :: cs)

theorem StrBody.plains {p b : GoStr} (hp : ∀ c ∈ p, c ≠ 34 ∧ c ≠ 92) (hb : StrBody b) : StrBody (p ++ b) := by
  induction p with
  | nil => exact hb
  | cons c p ih => exact .plain (hp c (.head _)).1 (hp c (.head _)).2 (ih fun x hx => hp x (.tail _ hx))

theorem StrBody.tail {c : UInt8} {cs : GoStr} (h : StrBody (c :: cs)) (hc : c ≠ 92) : StrBody cs := by
  cases h with
  | plain _ _ h => exact h
  | esc h => exact absurd rfl hc

theorem StrBody.indent {b : GoStr} (h : StrBody b) (ni : Bool) (d : Nat) (st : Bool) (y : GoStr) :
    indentLoop .str ni d st (b ++ 34 :: y) = b ++ 34 :: indentLoop .out ni d st y := by
  induction h with
  | nil => simp [indentLoop]
  | plain h1 h2 _ ih => simp [indentLoop, h1, h2, ih]
  | esc _ ih => simp [indentLoop, ih]

theorem unhex_plain {c : UInt8} {x : Nat} (h : unhex c = some x) : c ≠ 34 ∧ c ≠ 92 := by
  constructor
  · rintro rfl; revert h; decide +revert
  · rintro rfl; revert h; decide +revert

theorem readHex_prefix : ∀ {k : Nat} {s : GoStr} {v r : Nat} {rest : GoStr}, readHex k s v = some (r, rest) → ∃ p, s = p ++ rest ∧ ∀ c ∈ p, c ≠ 34 ∧ c ≠ 92
  | 0, s, v, r, rest, h => ⟨[], by simp only [readHex, Option.some.injEq, Prod.mk.injEq] at h; exact h.2, by simp⟩
  | k + 1, [], v, r, rest, h => by simp [readHex] at h
  | k + 1, c :: cs, v, r, rest, h => by
    simp only [readHex] at h
    split at h
    · rename_i x hx
      obtain ⟨p, e, hp⟩ := readHex_prefix h
      refine ⟨c :: p, by rw [e]; rfl, ?_⟩
      rintro q (_ | ⟨_, hq⟩)
      · exact unhex_plain hx
      · exact hp q hq
    · simp at h

theorem readHex_tail : ∀ (k : Nat) (x : GoStr) (v : Nat), StrBody x → ∃ o : Option (Nat × GoStr), (∀ y, readHex k (x ++ 34 :: y) v = o.map fun p => (p.1, p.2 ++ 34 :: y)) ∧
    ∀ r x', o = some (r, x') → StrBody x'
  | 0, x, v, h => ⟨some (v, x), fun y => rfl, fun r x' e => by obtain ⟨_, rfl⟩ := Prod.mk.inj (Option.some.inj e); exact h⟩
  | k + 1, [], v, _ => ⟨none, fun y => rfl, fun r x' e => nomatch e⟩
  | k + 1, c :: cs, v, h => by
    cases hc : unhex c with
    | none => exact ⟨none, fun y => by simp [readHex, hc], fun r x' e => nomatch e⟩
    | some u =>
      obtain ⟨o, h1, h2⟩ := readHex_tail k cs (v * 16 + u) (h.tail (unhex_plain hc).2)
      exact ⟨o, fun y => by simp only [List.cons_append, readHex, hc]; exact h1 y, h2⟩

theorem jsonHex_tail (x : GoStr) (h : StrBody x) : ∃ o : Option (GoStr × GoStr), (∀ y, jsonHex (x ++ 34 :: y) = o.map fun p => (p.1, p.2 ++ 34 :: y)) ∧
    ∀ r x', o = some (r, x') → StrBody x' := by
  obtain ⟨o, h1, h2⟩ := readHex_tail 4 x 0 h
  cases o with
  | none => exact ⟨none, fun y => by simp [jsonHex, h1], fun r x' e => nomatch e⟩
  | some p =>
    obtain ⟨r, x'⟩ := p
    have hx := h2 r x' rfl
    by_cases hr : 0xD800 ≤ r ∧ r < 0xDC00
    · have simple : (∀ s2, x' ≠ 92 :: 117 :: s2) → ∃ o : Option (GoStr × GoStr), (∀ y, jsonHex (x ++ 34 :: y) = o.map fun p => (p.1, p.2 ++ 34 :: y)) ∧
          ∀ r x', o = some (r, x') → StrBody x' := by
        intro hne
        refine ⟨some (encodeRune 0xFFFD, x'), fun y => ?_, fun r x'' e => by obtain ⟨_, rfl⟩ := Prod.mk.inj (Option.some.inj e); exact hx⟩
        simp only [jsonHex, h1, Option.map_some, if_pos hr]
        split
        · rename_i s2 e
          rcases x' with _ | ⟨a, _ | ⟨b, x'⟩⟩
          · simp at e
          · simp at e
          · simp only [List.cons_append, List.cons.injEq] at e
            exact absurd (by rw [e.1, e.2.1]) (hne x')
        · rfl
      by_cases hs : ∃ s2, x' = 92 :: 117 :: s2
      · obtain ⟨s2, rfl⟩ := hs
        have hs2 : StrBody s2 := by
          cases hx with
          | plain _ h _ => exact absurd rfl h
          | esc h => exact h
        obtain ⟨o2, h3, h4⟩ := readHex_tail 4 s2 0 hs2
        cases o2 with
        | none =>
          refine ⟨some (encodeRune 0xFFFD, 92 :: 117 :: s2), fun y => ?_, fun r x'' e => by obtain ⟨_, rfl⟩ := Prod.mk.inj (Option.some.inj e); exact hx⟩
          simp only [jsonHex, h1, Option.map_some, if_pos hr, List.cons_append, h3, Option.map_none]
        | some p2 =>
          obtain ⟨r2, x2⟩ := p2
          by_cases hr2 : 0xDC00 ≤ r2 ∧ r2 < 0xE000
          · refine ⟨some (encodeRune (0x10000 + (r - 0xD800) * 0x400 + (r2 - 0xDC00)), x2), fun y => ?_, fun r x'' e => by
              obtain ⟨_, rfl⟩ := Prod.mk.inj (Option.some.inj e); exact h4 _ _ rfl⟩
            simp only [jsonHex, h1, Option.map_some, if_pos hr, List.cons_append, h3, if_pos hr2]
          · refine ⟨some (encodeRune 0xFFFD, 92 :: 117 :: s2), fun y => ?_, fun r x'' e => by obtain ⟨_, rfl⟩ := Prod.mk.inj (Option.some.inj e); exact hx⟩
            simp only [jsonHex, h1, Option.map_some, if_pos hr, List.cons_append, h3, if_neg hr2]
      · exact simple fun s2 e => hs ⟨s2, e⟩
    · refine ⟨some (encodeRune r, x'), fun y => ?_, fun r x'' e => by obtain ⟨_, rfl⟩ := Prod.mk.inj (Option.some.inj e); exact hx⟩
      simp only [jsonHex, h1, Option.map_some, if_neg hr]

theorem jsonHex_prefix {s b rest : GoStr} (h : jsonHex s = some (b, rest)) : ∃ p, s = p ++ rest ∧ ∀ body, StrBody body → StrBody (p ++ body) := by
  unfold jsonHex at h
  split at h
  · simp at h
  · rename_i r rest1 h1
    obtain ⟨p1, e1, hp1⟩ := readHex_prefix h1
    split at h
    · split at h
      · rename_i s2
        split at h
        · rename_i r2 rest2 h2
          split at h
          · obtain ⟨_, rfl⟩ := Prod.mk.inj (Option.some.inj h)
            obtain ⟨p2, e2, hp2⟩ := readHex_prefix h2
            refine ⟨p1 ++ 92 :: 117 :: p2, by rw [e1, e2]; simp, fun body hb => ?_⟩
            rw [List.append_assoc]
            exact .plains hp1 (.esc (.plains hp2 hb))
          · obtain ⟨_, rfl⟩ := Prod.mk.inj (Option.some.inj h)
            exact ⟨p1, e1, fun body hb => .plains hp1 hb⟩
        · obtain ⟨_, rfl⟩ := Prod.mk.inj (Option.some.inj h)
          exact ⟨p1, e1, fun body hb => .plains hp1 hb⟩
      · obtain ⟨_, rfl⟩ := Prod.mk.inj (Option.some.inj h)
        exact ⟨p1, e1, fun body hb => .plains hp1 hb⟩
    · obtain ⟨_, rfl⟩ := Prod.mk.inj (Option.some.inj h)
      exact ⟨p1, e1, fun body hb => .plains hp1 hb⟩

theorem jsonEscape_prefix {s b rest : GoStr} (h : jsonEscape s = some (b, rest)) : ∃ e p, s = e :: p ++ rest ∧ ∀ body, StrBody body → StrBody (92 :: e :: p ++ body) := by
  unfold jsonEscape at h
  split at h
  · simp at h
  · rename_i c cs
    have one : cs = rest → ∃ e p, c :: cs = e :: p ++ rest ∧ ∀ body, StrBody body → StrBody (92 :: e :: p ++ body) :=
      fun e => ⟨c, [], by rw [e]; rfl, fun body hb => .esc hb⟩
    iterate 6 (split at h; exact one (Prod.mk.inj (Option.some.inj h)).2)
    split at h
    · obtain ⟨p, e, hp⟩ := jsonHex_prefix h
      exact ⟨c, p, by rw [e]; rfl, fun body hb => .esc (hp body hb)⟩
    · simp at h

theorem jsonEscape_tail (e : UInt8) (x : GoStr) (h : StrBody x) : ∃ o : Option (GoStr × GoStr), (∀ y, jsonEscape (e :: (x ++ 34 :: y)) = o.map fun p => (p.1, p.2 ++ 34 :: y)) ∧
    ∀ r x', o = some (r, x') → StrBody x' := by
  have one (b : GoStr) : ∀ r x', some (b, x) = some (r, x') → StrBody x' := fun r x' e => by obtain ⟨_, rfl⟩ := Prod.mk.inj (Option.some.inj e); exact h
  simp only [jsonEscape]
  by_cases h1 : e = 34 ∨ e = 92 ∨ e = 47
  · exact ⟨some ([e], x), fun y => by rw [if_pos h1]; rfl, one _⟩
  simp only [if_neg h1]
  by_cases h2 : e = 98
  · exact ⟨some ([8], x), fun y => by rw [if_pos h2]; rfl, one _⟩
  simp only [if_neg h2]
  by_cases h3 : e = 102
  · exact ⟨some ([12], x), fun y => by rw [if_pos h3]; rfl, one _⟩
  simp only [if_neg h3]
  by_cases h4 : e = 110
  · exact ⟨some ([10], x), fun y => by rw [if_pos h4]; rfl, one _⟩
  simp only [if_neg h4]
  by_cases h5 : e = 114
  · exact ⟨some ([13], x), fun y => by rw [if_pos h5]; rfl, one _⟩
  simp only [if_neg h5]
  by_cases h6 : e = 116
  · exact ⟨some ([9], x), fun y => by rw [if_pos h6]; rfl, one _⟩
  simp only [if_neg h6]
  by_cases h7 : e = 117
  · simp only [if_pos h7]; exact jsonHex_tail x h
  · exact ⟨none, fun y => by rw [if_neg h7]; rfl, fun r x' e => nomatch e⟩

theorem isCont_plain {c : UInt8} (h : isCont c) : c ≠ 34 ∧ c ≠ 92 := by
  constructor
  · rintro rfl; revert h; decide
  · rintro rfl; revert h; decide

theorem utf8Lo_plain {c : UInt8} {a : Nat} (h : utf8Lo a ≤ c.toNat) : c ≠ 34 ∧ c ≠ 92 := by
  have : 0x80 ≤ utf8Lo a := by unfold utf8Lo; split <;> (try split) <;> omega
  constructor
  · rintro rfl; simp at h; omega
  · rintro rfl; simp at h; omega

/-- The bytes of a rune after the first are neither quotes nor backslashes. -/
theorem decodeRune?_more {c : UInt8} {cs : GoStr} {r w : Nat} (h : decodeRune? (c :: cs) = some (r, w)) :
    0 < w ∧ w - 1 ≤ cs.length ∧ (∀ q ∈ cs.take (w - 1), q ≠ 34 ∧ q ≠ 92) ∧ ∀ cs', cs'.take (w - 1) = cs.take (w - 1) → decodeRune? (c :: cs') = some (r, w) := by
  simp only [decodeRune?] at h ⊢
  split at h
  · rename_i ha
    obtain ⟨rfl, rfl⟩ := Prod.mk.inj (Option.some.inj h)
    simp [ha]
  rename_i h0
  simp only [if_neg h0]
  split at h
  · simp at h
  rename_i h1
  simp only [if_neg h1]
  split at h
  · rename_i h2
    simp only [if_pos h2]
    split at h
    · rename_i c1 cs
      split at h
      · rename_i hc
        obtain ⟨rfl, rfl⟩ := Prod.mk.inj (Option.some.inj h)
        refine ⟨by omega, by simp, by simpa using isCont_plain hc, fun cs' e => ?_⟩
        rcases cs' with _ | ⟨d1, cs'⟩
        · simp at e
        · simp at e; subst e; simp [hc]
      · simp at h
    · simp at h
  rename_i h2
  simp only [if_neg h2]
  split at h
  · rename_i h3
    simp only [if_pos h3]
    split at h
    · rename_i c1 c2 cs
      split at h
      · rename_i hc
        obtain ⟨rfl, rfl⟩ := Prod.mk.inj (Option.some.inj h)
        refine ⟨by omega, by simp, by simpa using ⟨utf8Lo_plain hc.1, isCont_plain hc.2.2⟩, fun cs' e => ?_⟩
        rcases cs' with _ | ⟨d1, _ | ⟨d2, cs'⟩⟩
        · simp at e
        · simp at e
        · simp at e; obtain ⟨rfl, rfl⟩ := e; simp [hc]
      · simp at h
    · simp at h
  rename_i h3
  simp only [if_neg h3]
  split at h
  · rename_i h4
    simp only [if_pos h4]
    split at h
    · rename_i c1 c2 c3 cs
      split at h
      · rename_i hc
        obtain ⟨rfl, rfl⟩ := Prod.mk.inj (Option.some.inj h)
        refine ⟨by omega, by simp, by simpa using ⟨utf8Lo_plain hc.1, isCont_plain hc.2.2.1, isCont_plain hc.2.2.2⟩, fun cs' e => ?_⟩
        rcases cs' with _ | ⟨d1, _ | ⟨d2, _ | ⟨d3, cs'⟩⟩⟩
        · simp at e
        · simp at e
        · simp at e
        · simp at e; obtain ⟨rfl, rfl, rfl⟩ := e; simp [hc]
      · simp at h
    · simp at h
  · simp at h

theorem decodeRune?_tail (c : UInt8) (x : GoStr) : ∃ o : Option (Nat × Nat), (∀ y, decodeRune? (c :: (x ++ 34 :: y)) = o) ∧
    ∀ r w, o = some (r, w) → 0 < w ∧ w - 1 ≤ x.length ∧ ∀ q ∈ x.take (w - 1), q ≠ 34 ∧ q ≠ 92 := by
  by_cases h : ∃ y p, decodeRune? (c :: (x ++ 34 :: y)) = some p
  · obtain ⟨y0, ⟨r, w⟩, h⟩ := h
    obtain ⟨h1, h2, h3, h4⟩ := decodeRune?_more h
    have hw : w - 1 ≤ x.length := by
      apply Decidable.byContradiction
      intro hlt
      have : (34 : UInt8) ∈ (x ++ 34 :: y0).take (w - 1) := by
        rw [List.take_append, List.mem_append]
        right
        rw [show w - 1 - x.length = (w - 1 - x.length - 1) + 1 by omega, List.take_succ_cons]
        exact .head _
      exact (h3 _ this).1 rfl
    have e (y : GoStr) : (x ++ 34 :: y).take (w - 1) = x.take (w - 1) := by rw [List.take_append_of_le_length hw]
    refine ⟨some (r, w), fun y => h4 _ (by rw [e, e]), fun r' w' hh => ?_⟩
    obtain ⟨_, rfl⟩ := Prod.mk.inj (Option.some.inj hh)
    rw [e] at h3
    exact ⟨h1, hw, h3⟩
  · refine ⟨none, fun y => ?_, fun r w hh => nomatch hh⟩
    cases hd : decodeRune? (c :: (x ++ 34 :: y)) with
    | none => rfl
    | some p => exact absurd ⟨y, p, hd⟩ h

theorem StrBody.drop {x : GoStr} (h : StrBody x) : ∀ (k : Nat), (∀ q ∈ x.take k, q ≠ 34 ∧ q ≠ 92) → StrBody (x.drop k) := by
  intro k
  induction k generalizing x with
  | zero => intro _; simpa using h
  | succ k ih =>
    intro hq
    cases x with
    | nil => simpa using h
    | cons c x =>
      rw [List.take_succ_cons] at hq
      rw [List.drop_succ_cons]
      exact ih (h.tail (hq c (.head _)).2) fun q hm => hq q (.tail _ hm)

/-- What the characters of a string are read as does not depend on what follows the string. -/
theorem jsonChars_tail : ∀ (n : Nat) (x : GoStr), StrBody x → ∃ o : Option GoStr, ∀ y, jsonChars n (x ++ 34 :: y) = o.map fun b => (b, y)
  | 0, x, _ => ⟨none, fun y => by simp [jsonChars]⟩
  | n + 1, [], _ => ⟨some [], fun y => by simp [jsonChars]⟩
  | n + 1, c :: cs, h => by
    simp only [List.cons_append, jsonChars]
    by_cases h34 : c = 34
    · subst h34
      cases h with
      | plain h _ _ => exact absurd rfl h
    simp only [if_neg h34]
    by_cases h92 : c = 92
    · subst h92
      cases h with
      | plain _ h _ => exact absurd rfl h
      | @esc e cs hb =>
        obtain ⟨o, h1, h2⟩ := jsonEscape_tail e cs hb
        simp only [if_true, List.cons_append, h1]
        cases o with
        | none => exact ⟨none, fun y => rfl⟩
        | some p =>
          obtain ⟨o, h3⟩ := jsonChars_tail n p.2 (h2 p.1 p.2 rfl)
          refine ⟨o.map fun b => p.1 ++ b, fun y => ?_⟩
          simp only [Option.map_some, h3]
          cases o <;> rfl
    simp only [if_neg h92]
    by_cases h32 : c < 32
    · exact ⟨none, fun y => by rw [if_pos h32]; rfl⟩
    simp only [if_neg h32]
    by_cases h80 : c < 0x80
    · obtain ⟨o, h3⟩ := jsonChars_tail n cs (h.tail h92)
      refine ⟨o.map fun b => c :: b, fun y => ?_⟩
      simp only [if_pos h80, h3]
      cases o <;> rfl
    simp only [if_neg h80]
    obtain ⟨o, h1, h2⟩ := decodeRune?_tail c cs
    simp only [h1]
    cases o with
    | none =>
      obtain ⟨o, h3⟩ := jsonChars_tail n cs (h.tail h92)
      refine ⟨o.map fun b => encodeRune 0xFFFD ++ b, fun y => ?_⟩
      simp only [h3]
      cases o <;> rfl
    | some p =>
      obtain ⟨r, w⟩ := p
      obtain ⟨hw0, hw, hq⟩ := h2 r w rfl
      obtain ⟨o, h3⟩ := jsonChars_tail n (cs.drop (w - 1)) ((h.tail h92).drop _ hq)
      refine ⟨o.map fun b => (c :: cs).take w ++ b, fun y => ?_⟩
      have e1 : (cs ++ 34 :: y).drop (w - 1) = cs.drop (w - 1) ++ 34 :: y := List.drop_append_of_le_length hw
      have e2 : (c :: (cs ++ 34 :: y)).take w = (c :: cs).take w := by
        rw [← List.cons_append, List.take_append_of_le_length (by simp only [List.length_cons]; omega)]
      simp only [e1, e2, h3]
      cases o <;> rfl

theorem jsonChars_prefix : ∀ {n : Nat} {s b rest : GoStr}, jsonChars n s = some (b, rest) → ∃ body, StrBody body ∧ s = body ++ 34 :: rest
  | 0, s, b, rest, h => by simp [jsonChars] at h
  | n + 1, [], b, rest, h => by simp [jsonChars] at h
  | n + 1, c :: cs, b, rest, h => by
    simp only [jsonChars] at h
    split at h
    · rename_i h34
      obtain ⟨_, rfl⟩ := Prod.mk.inj (Option.some.inj h)
      exact ⟨[], .nil, by rw [h34]; rfl⟩
    rename_i h34
    split at h
    · rename_i h92
      split at h
      · simp at h
      · rename_i b1 rest1 h1
        obtain ⟨⟨b2, r2⟩, h2, h3⟩ := Option.map_eq_some_iff.mp h
        obtain ⟨_, rfl⟩ := Prod.mk.inj h3
        obtain ⟨body, hb, e⟩ := jsonChars_prefix h2
        obtain ⟨x, p, e1, hp⟩ := jsonEscape_prefix h1
        exact ⟨92 :: x :: p ++ body, hp body hb, by rw [h92, e1, e]; simp⟩
    rename_i h92
    have one {d : GoStr} (h : ((jsonChars n cs).map fun p => (d ++ p.1, p.2)) = some (b, rest)) : ∃ body, StrBody body ∧ c :: cs = body ++ 34 :: rest := by
      obtain ⟨⟨b2, r2⟩, h2, h3⟩ := Option.map_eq_some_iff.mp h
      obtain ⟨_, rfl⟩ := Prod.mk.inj h3
      obtain ⟨body, hb, e⟩ := jsonChars_prefix h2
      exact ⟨c :: body, .plain h34 h92 hb, by rw [e]; rfl⟩
    split at h
    · simp at h
    split at h
    · exact one (d := [c]) h
    split at h
    · rename_i r w hd
      obtain ⟨⟨b2, r2⟩, h2, h3⟩ := Option.map_eq_some_iff.mp h
      obtain ⟨_, rfl⟩ := Prod.mk.inj h3
      obtain ⟨body, hb, e⟩ := jsonChars_prefix h2
      refine ⟨c :: (cs.take (w - 1) ++ body), .plain h34 h92 (.plains (decodeRune?_more hd).2.2.1 hb), ?_⟩
      rw [List.cons_append, List.append_assoc, ← e, List.take_append_drop]
    · exact one h

theorem jsonChars_more : ∀ {n : Nat} {s b rest : GoStr}, jsonChars n s = some (b, rest) → ∀ m, s.length ≤ m + rest.length → jsonChars m s = some (b, rest)
  | 0, s, b, rest, h, _, _ => by simp [jsonChars] at h
  | n + 1, [], b, rest, h, _, _ => by simp [jsonChars] at h
  | n + 1, c :: cs, b, rest, h, 0, hm => by
    obtain ⟨body, _, e⟩ := jsonChars_prefix h
    have := congrArg List.length e
    simp only [List.length_cons, List.length_append] at this hm
    omega
  | n + 1, c :: cs, b, rest, h, m + 1, hm => by
    simp only [List.length_cons] at hm
    simp only [jsonChars] at h ⊢
    split
    · rename_i h34; rw [if_pos h34] at h; exact h
    rename_i h34; rw [if_neg h34] at h
    split
    · rename_i h92; rw [if_pos h92] at h
      split at h
      · simp at h
      · rename_i b1 rest1 h1
        obtain ⟨⟨b2, r2⟩, h2, h3⟩ := Option.map_eq_some_iff.mp h
        obtain ⟨rfl, rfl⟩ := Prod.mk.inj h3
        obtain ⟨x, p, e1, _⟩ := jsonEscape_prefix h1
        have := congrArg List.length e1
        simp only [List.length_cons, List.length_append] at this
        simp only [jsonChars_more h2 m (by simp only at hm ⊢; omega), h1]
        rfl
    rename_i h92; rw [if_neg h92] at h
    have one {d : GoStr} (h : ((jsonChars n cs).map fun p => (d ++ p.1, p.2)) = some (b, rest)) : ((jsonChars m cs).map fun p => (d ++ p.1, p.2)) = some (b, rest) := by
      obtain ⟨⟨b2, r2⟩, h2, h3⟩ := Option.map_eq_some_iff.mp h
      obtain ⟨rfl, rfl⟩ := Prod.mk.inj h3
      rw [jsonChars_more h2 m (by simp only at hm ⊢; omega)]
      rfl
    split
    · rename_i h32; rw [if_pos h32] at h; simp at h
    rename_i h32; rw [if_neg h32] at h
    split
    · rename_i h80; rw [if_pos h80] at h; exact one (d := [c]) h
    rename_i h80; rw [if_neg h80] at h
    split
    · rename_i r w hd
      simp only [hd] at h
      obtain ⟨⟨b2, r2⟩, h2, h3⟩ := Option.map_eq_some_iff.mp h
      obtain ⟨rfl, rfl⟩ := Prod.mk.inj h3
      rw [jsonChars_more h2 m (by simp only [List.length_drop] at hm ⊢; omega)]
      rfl
    · rename_i hd
      simp only [hd] at h
      exact one h

/-- A string: its bytes, which are read as `b` whatever follows, and which are not changed by indenting. -/
theorem jsonChars_indent {r b rest : GoStr} (h : jsonChars (r.length + 1) r = some (b, rest)) (ni : Bool) (d : Nat) (st : Bool) :
    ∀ s', indentLoop .str ni d st r = s' → jsonChars (s'.length + 1) s' = some (b, indentLoop .out ni d st rest) := by
  intro s' e'
  obtain ⟨body, hb, rfl⟩ := jsonChars_prefix h
  rw [hb.indent] at e'
  subst e'
  obtain ⟨o, ho⟩ := jsonChars_tail ((body ++ 34 :: rest).length + 1) body hb
  have := ho rest
  rw [h] at this
  cases o with
  | none => simp at this
  | some b' =>
    simp only [Option.map_some, Option.some.injEq, Prod.mk.injEq, and_true] at this
    subst this
    exact jsonChars_more (ho _) _ (by simp only [List.length_append, List.length_cons]; omega)

/-! ### Numbers and literals -/

/-- A byte of a number. -/
def NumChar (c : UInt8) : Prop := FloatFmt.isDigit c = true ∨ c = 43 ∨ c = 45 ∨ c = 46 ∨ c = 101 ∨ c = 69

/-- What may follow a number. -/
def NumEnd (r : GoStr) : Prop := ∀ c cs, r = c :: cs → FloatFmt.isDigit c = false ∧ c ≠ 46 ∧ c ≠ 101 ∧ c ≠ 69

theorem takeWhile_digits {t r : GoStr} (ht : ∀ c ∈ t, FloatFmt.isDigit c = true) (hr : ∀ c cs, r = c :: cs → FloatFmt.isDigit c = false) :
    (t ++ r).takeWhile FloatFmt.isDigit = t ∧ (t ++ r).dropWhile FloatFmt.isDigit = r := by
  induction t with
  | nil =>
    cases r with
    | nil => simp
    | cons c cs => simp [hr c cs rfl]
  | cons c t ih =>
    obtain ⟨h1, h2⟩ := ih fun x hx => ht x (.tail _ hx)
    simp [ht c (.head _), h1, h2]

theorem jsonDigits_prefix {s t r : GoStr} (h : jsonDigits s = some (t, r)) : s = t ++ r ∧ (∃ c t', t = c :: t') ∧ (∀ c ∈ t, FloatFmt.isDigit c = true) ∧
    ∀ r', (∀ c cs, r' = c :: cs → FloatFmt.isDigit c = false) → jsonDigits (t ++ r') = some (t, r') := by
  unfold jsonDigits at h
  split at h
  · simp at h
  · rename_i hne
    obtain ⟨e1, e2⟩ := Prod.mk.inj (Option.some.inj h)
    rw [e1] at hne
    have hd : ∀ c ∈ t, FloatFmt.isDigit c = true := by
      intro c hc
      rw [← e1] at hc
      exact (List.all_eq_true.mp (List.all_takeWhile (p := FloatFmt.isDigit) (l := s))) c hc
    refine ⟨by rw [← e1, ← e2, List.takeWhile_append_dropWhile], ?_, hd, fun r' hr' => ?_⟩
    · cases t with
      | nil => exact absurd rfl hne
      | cons c t => exact ⟨c, t, rfl⟩
    · obtain ⟨h1, h2⟩ := takeWhile_digits hd hr'
      unfold jsonDigits
      rw [h1, h2, if_neg hne]

theorem jsonExp_prefix {s t r : GoStr} (h : jsonExp s = some (t, r)) : s = t ++ r ∧ (∀ c ∈ t, NumChar c) ∧ (∀ c t', t = c :: t' → c = 101 ∨ c = 69) ∧
    ∀ r', NumEnd r' → jsonExp (t ++ r') = some (t, r') := by
  have empty : ∀ r', NumEnd r' → jsonExp ([] ++ r') = some ([], r') := by
    intro r' hr'
    cases r' with
    | nil => rfl
    | cons c cs =>
      obtain ⟨_, _, h1, h2⟩ := hr' c cs rfl
      simp [jsonExp, h1, h2]
  unfold jsonExp at h
  split at h
  · obtain ⟨rfl, rfl⟩ := Prod.mk.inj (Option.some.inj h)
    exact ⟨rfl, by simp, by simp, empty⟩
  · rename_i e r0
    split at h
    · rename_i he
      have hne : NumChar e := by rcases he with rfl | rfl <;> simp [NumChar]
      split at h
      · simp at h
      · rename_i c r1
        split at h
        · rename_i hc
          have hnc : NumChar c := by rcases hc with rfl | rfl <;> simp [NumChar]
          obtain ⟨⟨ds, rest⟩, h2, h3⟩ := Option.map_eq_some_iff.mp h
          obtain ⟨rfl, rfl⟩ := Prod.mk.inj h3
          obtain ⟨e1, _, e3, e4⟩ := jsonDigits_prefix h2
          refine ⟨by rw [e1]; rfl, ?_, ?_, fun r' hr' => ?_⟩
          · rintro x (_ | ⟨_, _ | ⟨_, hx⟩⟩)
            · exact hne
            · exact hnc
            · exact .inl (e3 x hx)
          · rintro x t' hx; simp only [List.cons.injEq] at hx; rw [← hx.1]; exact he
          · simp only [List.cons_append, jsonExp, if_pos he, if_pos hc, e4 r' (fun c cs hh => (hr' c cs hh).1)]; rfl
        · rename_i hc
          obtain ⟨⟨ds, rest⟩, h2, h3⟩ := Option.map_eq_some_iff.mp h
          obtain ⟨rfl, rfl⟩ := Prod.mk.inj h3
          obtain ⟨e1, ⟨c', t', e2⟩, e3, e4⟩ := jsonDigits_prefix h2
          refine ⟨by rw [e1]; rfl, ?_, ?_, fun r' hr' => ?_⟩
          · rintro x (_ | ⟨_, hx⟩)
            · exact hne
            · exact .inl (e3 x hx)
          · rintro x t' hx; simp only [List.cons.injEq] at hx; rw [← hx.1]; exact he
          · have := e4 r' (fun c cs hh => (hr' c cs hh).1)
            subst e2
            simp only [List.cons_append, List.cons.injEq] at e1
            simp only [List.cons_append] at this
            simp only [List.cons_append, jsonExp, if_pos he, ← e1.1, if_neg hc]
            rw [e1.1, this]; rfl
    · rename_i he
      obtain ⟨rfl, rfl⟩ := Prod.mk.inj (Option.some.inj h)
      exact ⟨rfl, by simp, by simp, empty⟩

theorem jsonFrac_prefix {s t r : GoStr} (h : jsonFrac s = some (t, r)) : s = t ++ r ∧ (∀ c ∈ t, NumChar c) ∧ (∀ c t', t = c :: t' → c = 46) ∧
    ∀ r', (∀ c cs, r' = c :: cs → FloatFmt.isDigit c = false ∧ c ≠ 46) → jsonFrac (t ++ r') = some (t, r') := by
  have empty : ∀ r', (∀ c cs, r' = c :: cs → FloatFmt.isDigit c = false ∧ c ≠ 46) → jsonFrac ([] ++ r') = some ([], r') := by
    intro r' hr'
    cases r' with
    | nil => rfl
    | cons c cs => simp [jsonFrac, (hr' c cs rfl).2]
  unfold jsonFrac at h
  split at h
  · obtain ⟨rfl, rfl⟩ := Prod.mk.inj (Option.some.inj h)
    exact ⟨rfl, by simp, by simp, empty⟩
  · rename_i c r0
    split at h
    · rename_i hc
      obtain ⟨⟨ds, rest⟩, h2, h3⟩ := Option.map_eq_some_iff.mp h
      obtain ⟨rfl, rfl⟩ := Prod.mk.inj h3
      obtain ⟨e1, _, e3, e4⟩ := jsonDigits_prefix h2
      refine ⟨by rw [e1, hc]; rfl, ?_, ?_, fun r' hr' => ?_⟩
      · rintro x (_ | ⟨_, hx⟩)
        · simp [NumChar]
        · exact .inl (e3 x hx)
      · rintro x t' hx; simp only [List.cons.injEq] at hx; exact hx.1.symm
      · simp only [List.cons_append, jsonFrac, if_true, e4 r' (fun c cs hh => (hr' c cs hh).1)]; rfl
    · obtain ⟨rfl, rfl⟩ := Prod.mk.inj (Option.some.inj h)
      exact ⟨rfl, by simp, by simp, empty⟩

theorem jsonWhole_prefix {s t r : GoStr} (h : jsonWhole s = some (t, r)) : s = t ++ r ∧ (∀ c ∈ t, FloatFmt.isDigit c = true) ∧ (∃ c t', t = c :: t') ∧
    ∀ r', (∀ c cs, r' = c :: cs → FloatFmt.isDigit c = false) → jsonWhole (t ++ r') = some (t, r') := by
  unfold jsonWhole at h
  split at h
  · simp at h
  · rename_i c r0
    split at h
    · rename_i hc
      obtain ⟨rfl, rfl⟩ := Prod.mk.inj (Option.some.inj h)
      exact ⟨by rw [hc]; rfl, by simp [FloatFmt.isDigit], ⟨_, _, rfl⟩, fun r' _ => by simp [jsonWhole]⟩
    · rename_i hc
      obtain ⟨e1, ⟨c', t', e2⟩, e3, e4⟩ := jsonDigits_prefix h
      refine ⟨e1, e3, ⟨c', t', e2⟩, fun r' hr' => ?_⟩
      have := e4 r' hr'
      subst e2
      simp only [List.cons_append, List.cons.injEq] at e1
      rw [e1.1] at hc
      simp only [List.cons_append] at this ⊢
      rw [jsonWhole, if_neg hc, this]

theorem jsonNumber_prefix {s t r : GoStr} (h : jsonNumber s = some (t, r)) : s = t ++ r ∧ (∃ c t', t = c :: t') ∧ (∀ c ∈ t, NumChar c) ∧
    ∀ r', NumEnd r' → jsonNumber (t ++ r') = some (t, r') := by
  simp only [jsonNumber] at h
  split at h
  · simp at h
  rename_i whole r1 h1
  split at h
  · simp at h
  rename_i frac r2 h2
  obtain ⟨⟨ex, r3⟩, h3, h4⟩ := Option.map_eq_some_iff.mp h
  obtain ⟨e, rfl⟩ := Prod.mk.inj h4
  obtain ⟨a1, a2, ⟨c0, t0, a3⟩, a4⟩ := jsonWhole_prefix h1
  obtain ⟨b1, b2, b3, b4⟩ := jsonFrac_prefix h2
  obtain ⟨c1, c2, c3, c4⟩ := jsonExp_prefix h3
  have hs : s = t ++ r3 := by
    rw [← e]
    by_cases hh : s.head? = some 45
    · rw [if_pos hh] at a1 ⊢
      cases s with
      | nil => simp at hh
      | cons c s =>
        simp only [List.head?_cons, Option.some.injEq] at hh
        simp only [List.length_cons, List.length_nil, List.drop_succ_cons, List.drop_zero] at a1
        rw [hh, a1, b1, c1]; simp
    · rw [if_neg hh] at a1 ⊢
      simp only [List.length_nil, List.drop_zero] at a1
      rw [a1, b1, c1]; simp
  have tail (r' : GoStr) (hr' : NumEnd r') : jsonWhole (whole ++ (frac ++ (ex ++ r'))) = some (whole, frac ++ (ex ++ r')) ∧ jsonFrac (frac ++ (ex ++ r')) = some (frac, ex ++ r') ∧
      jsonExp (ex ++ r') = some (ex, r') := by
    have hex : ∀ c cs, ex ++ r' = c :: cs → FloatFmt.isDigit c = false ∧ c ≠ 46 := by
      intro c cs hh
      cases ex with
      | nil => exact ⟨(hr' c cs hh).1, (hr' c cs hh).2.1⟩
      | cons x ex =>
        simp only [List.cons_append, List.cons.injEq] at hh
        rw [← hh.1]
        rcases c3 x ex rfl with rfl | rfl <;> decide
    refine ⟨a4 _ ?_, b4 _ hex, c4 _ hr'⟩
    intro c cs hh
    cases frac with
    | nil => exact (hex c cs hh).1
    | cons x frac =>
      simp only [List.cons_append, List.cons.injEq] at hh
      rw [← hh.1, b3 x frac rfl]; decide
  refine ⟨hs, ?_, ?_, fun r' hr' => ?_⟩
  · rw [← e]
    split
    · exact ⟨45, _, rfl⟩
    · rw [a3]; exact ⟨c0, _, rfl⟩
  · rw [← e]
    intro c hc
    simp only [List.mem_append] at hc
    rcases hc with ((hc | hc) | hc) | hc
    · split at hc
      · simp only [List.mem_cons, List.not_mem_nil, or_false] at hc; rw [hc]; simp [NumChar]
      · simp at hc
    · exact .inl (a2 c hc)
    · exact b2 c hc
    · exact c2 c hc
  · obtain ⟨t1, t2, t3⟩ := tail r' hr'
    rw [← e]
    by_cases hh : s.head? = some 45
    · simp only [if_pos hh, List.append_assoc, List.cons_append, List.nil_append, jsonNumber, List.head?_cons, if_true, List.length_cons, List.length_nil, List.drop_succ_cons,
        List.drop_zero, t1, t2, t3, Option.map_some]
    · have : (whole ++ (frac ++ (ex ++ r'))).head? ≠ some 45 := by
        rw [a3, List.cons_append, List.head?_cons]
        intro h45
        have := a2 c0 (by rw [a3]; exact .head _)
        rw [Option.some.inj h45] at this
        revert this; decide
      simp only [if_neg hh, List.append_assoc, List.nil_append, jsonNumber, if_neg this, List.length_nil, List.drop_zero, t1, t2, t3, Option.map_some]

theorem jsonLiteral_iff : ∀ {p s r : GoStr}, jsonLiteral p s = some r ↔ s = p ++ r
  | [], s, r => by simp [jsonLiteral]
  | p :: ps, [], r => by simp [jsonLiteral]
  | p :: ps, c :: cs, r => by
    simp only [jsonLiteral, List.cons_append, List.cons.injEq]
    split
    · rename_i h; rw [jsonLiteral_iff]; simp [h]
    · rename_i h; simp [h]

/-! ### Fuel -/

theorem jsonSpace_le : ∀ (s : GoStr), (jsonSpace s).length ≤ s.length
  | [] => Nat.le_refl _
  | c :: cs => by
    simp only [jsonSpace]
    split
    · exact Nat.le_succ_of_le (jsonSpace_le cs)
    · exact Nat.le_refl _

theorem jsonSpace_head : ∀ {s : GoStr} {c : UInt8} {r : GoStr}, jsonSpace s = c :: r → ¬ (c = 32 ∨ c = 9 ∨ c = 10 ∨ c = 13)
  | [], c, r, h => by simp [jsonSpace] at h
  | x :: cs, c, r, h => by
    simp only [jsonSpace] at h
    split at h
    · exact jsonSpace_head h
    · rename_i hx; simp only [List.cons.injEq] at h; rw [← h.1]; exact hx

theorem jsonSpace_idem (s : GoStr) : jsonSpace (jsonSpace s) = jsonSpace s := by
  cases h : jsonSpace s with
  | nil => rfl
  | cons c r => exact jsonSpace_cons (jsonSpace_head h)

/-- A text that could be read is read with any other bound that leaves two calls for each byte. -/
theorem jsonFuel (n : Nat) : (∀ s v r, jsonValue n s = some (v, r) → r.length < s.length ∧ ∀ m, 2 * (s.length - r.length) ≤ m + 1 → jsonValue m s = some (v, r)) ∧
    (∀ s v r, jsonElems n s = some (v, r) → r.length < s.length ∧ ∀ m, 2 * (s.length - r.length) ≤ m → jsonElems m s = some (v, r)) ∧
    (∀ s v r, jsonMembers n s = some (v, r) → r.length < s.length ∧ ∀ m, 2 * (s.length - r.length) ≤ m → jsonMembers m s = some (v, r)) := by
  induction n with
  | zero => simp [jsonValue, jsonElems, jsonMembers]
  | succ n ih =>
    obtain ⟨ihV, ihE, ihM⟩ := ih
    refine ⟨fun s v r h => ?_, fun s v r h => ?_, fun s v r h => ?_⟩
    · have hle := jsonSpace_le s
      simp only [jsonValue] at h
      have fin {x : Option (JVal × GoStr)} (hx : x = some (v, r)) (hlt : r.length < (jsonSpace s).length) (hm : ∀ m, 2 * (s.length - r.length) ≤ m + 2 → jsonValue (m + 1) s = x) :
          r.length < s.length ∧ ∀ m, 2 * (s.length - r.length) ≤ m + 1 → jsonValue m s = some (v, r) := by
        refine ⟨by omega, fun m hm' => ?_⟩
        cases m with
        | zero => omega
        | succ m => rw [hm m (by omega)]; exact hx
      split at h
      · simp at h
      rename_i c r0 hs
      rw [hs, List.length_cons] at hle
      split at h
      · rename_i h123
        have hle2 := jsonSpace_le r0
        split at h
        · rename_i r' hr
          rw [hr, List.length_cons] at hle2
          refine fin h ?_ fun m _ => by rw [jsonValue]; simp only [hs, hr, if_pos h123]
          obtain ⟨_, rfl⟩ := Prod.mk.inj (Option.some.inj h)
          rw [hs, List.length_cons]; omega
        · rename_i r' hr
          obtain ⟨⟨m', rest⟩, h2, h3⟩ := Option.map_eq_some_iff.mp h
          obtain ⟨_, rfl⟩ := Prod.mk.inj h3
          obtain ⟨l1, l2⟩ := ihM _ _ _ h2
          refine fin h (by rw [hs, List.length_cons]; simp only at l1 ⊢; omega) fun m hm => ?_
          rw [jsonValue]
          simp only [hs, if_pos h123]
          simp only at hm l1 l2
          rw [h2, l2 m (by omega)]
      rename_i h123
      split at h
      · rename_i h91
        have hle2 := jsonSpace_le r0
        split at h
        · rename_i r' hr
          rw [hr, List.length_cons] at hle2
          refine fin h ?_ fun m _ => by rw [jsonValue]; simp only [hs, hr, if_neg h123, if_pos h91]
          obtain ⟨_, rfl⟩ := Prod.mk.inj (Option.some.inj h)
          rw [hs, List.length_cons]; omega
        · rename_i r' hr
          obtain ⟨⟨m', rest⟩, h2, h3⟩ := Option.map_eq_some_iff.mp h
          obtain ⟨_, rfl⟩ := Prod.mk.inj h3
          obtain ⟨l1, l2⟩ := ihE _ _ _ h2
          refine fin h (by rw [hs, List.length_cons]; simp only at l1 ⊢; omega) fun m hm => ?_
          rw [jsonValue]
          simp only [hs, if_neg h123, if_pos h91]
          simp only at hm l1 l2
          rw [h2, l2 m (by omega)]
      rename_i h91
      refine fin h ?_ fun m _ => by rw [jsonValue]; simp only [hs, if_neg h123, if_neg h91]
      rw [hs]
      split at h
      · obtain ⟨⟨m', rest⟩, h2, h3⟩ := Option.map_eq_some_iff.mp h
        obtain ⟨_, rfl⟩ := Prod.mk.inj h3
        obtain ⟨body, _, e⟩ := jsonChars_prefix h2
        have := congrArg List.length e
        simp only [List.length_append, List.length_cons] at this ⊢
        omega
      have lit {p : GoStr} (hp : p ≠ []) {x : JVal} (h : (jsonLiteral p (c :: r0)).map (fun rest => (x, rest)) = some (v, r)) : r.length < (c :: r0).length := by
        obtain ⟨rest, h2, h3⟩ := Option.map_eq_some_iff.mp h
        obtain ⟨_, rfl⟩ := Prod.mk.inj h3
        rw [jsonLiteral_iff.mp h2, List.length_append]
        have : 0 < p.length := List.length_pos_iff.mpr hp
        omega
      split at h
      · exact lit (by decide) h
      split at h
      · exact lit (by decide) h
      split at h
      · exact lit (by decide) h
      obtain ⟨⟨m', rest⟩, h2, h3⟩ := Option.map_eq_some_iff.mp h
      obtain ⟨_, rfl⟩ := Prod.mk.inj h3
      obtain ⟨e, ⟨_, _, e2⟩, _⟩ := jsonNumber_prefix h2
      rw [e, e2]
      simp only [List.length_append, List.length_cons]
      omega
    · simp only [jsonElems] at h
      split at h
      · simp at h
      rename_i v1 r1 h1
      obtain ⟨l1, l2⟩ := ihV _ _ _ h1
      have hle := jsonSpace_le r1
      split at h
      · simp at h
      rename_i c r' hs
      rw [hs, List.length_cons] at hle
      split at h
      · rename_i h44
        obtain ⟨⟨m', rest⟩, h2, h3⟩ := Option.map_eq_some_iff.mp h
        have h3 := Prod.mk.inj h3
        simp only at h3
        obtain ⟨rfl, rfl⟩ := h3
        obtain ⟨l3, l4⟩ := ihE _ _ _ h2
        refine ⟨by omega, fun m hm => ?_⟩
        cases m with
        | zero => omega
        | succ m => rw [jsonElems, l2 m (by omega)]; simp only [hs, if_pos h44, l4 m (by omega)]; rfl
      · rename_i h44
        split at h
        · rename_i h93
          obtain ⟨rfl, rfl⟩ := Prod.mk.inj (Option.some.inj h)
          refine ⟨by omega, fun m hm => ?_⟩
          cases m with
          | zero => omega
          | succ m => rw [jsonElems, l2 m (by omega)]; simp only [hs, if_neg h44, if_pos h93]
        · simp at h
    · simp only [jsonMembers] at h
      have hle0 := jsonSpace_le s
      split at h
      · simp at h
      rename_i q r0 hs0
      rw [hs0, List.length_cons] at hle0
      split at h
      case isFalse => simp at h
      rename_i h34
      split at h
      · simp at h
      rename_i k r1 hk
      obtain ⟨body, _, e⟩ := jsonChars_prefix hk
      have he := congrArg List.length e
      simp only [List.length_append, List.length_cons] at he
      have hle1 := jsonSpace_le r1
      split at h
      · simp at h
      rename_i colon r2 hs1
      rw [hs1, List.length_cons] at hle1
      split at h
      case isFalse => simp at h
      rename_i h58
      split at h
      · simp at h
      rename_i v1 r3 h1
      obtain ⟨l1, l2⟩ := ihV _ _ _ h1
      have hle := jsonSpace_le r3
      split at h
      · simp at h
      rename_i c r' hs
      rw [hs, List.length_cons] at hle
      split at h
      · rename_i h44
        obtain ⟨⟨m', rest⟩, h2, h3⟩ := Option.map_eq_some_iff.mp h
        have h3 := Prod.mk.inj h3
        simp only at h3
        obtain ⟨rfl, rfl⟩ := h3
        obtain ⟨l3, l4⟩ := ihM _ _ _ h2
        refine ⟨by omega, fun m hm => ?_⟩
        cases m with
        | zero => omega
        | succ m =>
          rw [jsonMembers]; simp only [hs0, if_pos h34, hk, hs1, if_pos h58]; rw [l2 m (by omega)]
          simp only [hs, if_pos h44, l4 m (by omega)]; rfl
      · rename_i h44
        split at h
        · rename_i h125
          obtain ⟨rfl, rfl⟩ := Prod.mk.inj (Option.some.inj h)
          refine ⟨by omega, fun m hm => ?_⟩
          cases m with
          | zero => omega
          | succ m =>
            rw [jsonMembers]; simp only [hs0, if_pos h34, hk, hs1, if_pos h58]; rw [l2 m (by omega)]
            simp only [hs, if_neg h44, if_pos h125]
        · simp at h

/-! ### Indenting -/

theorem jsonValue_space (n : Nat) {s s' : GoStr} (h : jsonSpace s = jsonSpace s') : jsonValue n s = jsonValue n s' := by
  cases n with
  | zero => rfl
  | succ n => rw [jsonValue, jsonValue, h]

theorem jsonElems_space (n : Nat) {s s' : GoStr} (h : jsonSpace s = jsonSpace s') : jsonElems n s = jsonElems n s' := by
  cases n with
  | zero => rfl
  | succ n => rw [jsonElems, jsonElems, jsonValue_space n h]

theorem jsonMembers_space (n : Nat) {s s' : GoStr} (h : jsonSpace s = jsonSpace s') : jsonMembers n s = jsonMembers n s' := by
  cases n with
  | zero => rfl
  | succ n => rw [jsonMembers, jsonMembers, h]

theorem jsonSpace_newline (d : Nat) (s : GoStr) : jsonSpace (indentNewline d ++ s) = jsonSpace s := by
  have : ∀ d, jsonSpace (List.replicate d 9 ++ s) = jsonSpace s := by
    intro d
    induction d with
    | zero => rfl
    | succ d ih => rw [List.replicate_succ, List.cons_append, jsonSpace, if_pos (by decide), ih]
  rw [indentNewline, List.cons_append, jsonSpace, if_pos (by decide), this]

/-- White space inside the value is dropped. -/
theorem indentLoop_skip (ni : Bool) (d : Nat) (st : Bool) (h : st = false ∨ 0 < d ∨ ni = true) : ∀ (s : GoStr), indentLoop .out ni d st s = indentLoop .out ni d st (jsonSpace s)
  | [] => rfl
  | c :: cs => by
    rw [jsonSpace]
    split
    · rename_i hc
      rw [← indentLoop_skip ni d st h cs, indentLoop, if_pos hc, if_neg]
      rcases h with rfl | h | rfl
      · simp
      · simp [Nat.ne_of_gt h]
      · simp
    · rfl

/-- The first token after an opening bracket goes on a line of its own. -/
theorem indentLoop_first (d : Nat) (st : Bool) {c : UInt8} (cs : GoStr) (hc : ¬ (c = 32 ∨ c = 9 ∨ c = 10 ∨ c = 13)) (hc' : ¬ (c = 125 ∨ c = 93)) :
    indentLoop .out true d st (c :: cs) = indentNewline (d + 1) ++ indentLoop .out false (d + 1) st (c :: cs) := by
  simp only [indentLoop, if_neg hc, if_neg hc', if_true]
  rfl

theorem indentLoop_open (d : Nat) (st : Bool) {c : UInt8} (cs : GoStr) (h : c = 123 ∨ c = 91) : indentLoop .out false d st (c :: cs) = c :: indentLoop .out true d true cs := by
  rcases h with rfl | rfl <;> simp [indentLoop]

theorem indentLoop_close (d : Nat) (st : Bool) {c : UInt8} (cs : GoStr) (h : c = 125 ∨ c = 93) :
    indentLoop .out false (d + 1) st (c :: cs) = indentNewline d ++ c :: indentLoop .out false d true cs := by
  rcases h with rfl | rfl <;> simp [indentLoop]

theorem indentLoop_empty (d : Nat) (st : Bool) {c : UInt8} (cs : GoStr) (h : c = 125 ∨ c = 93) :
    indentLoop .out true d st (c :: cs) = c :: indentLoop .out false d true cs := by
  rcases h with rfl | rfl <;> simp [indentLoop]

theorem indentLoop_comma (d : Nat) (st : Bool) (cs : GoStr) : indentLoop .out false d st (44 :: cs) = 44 :: (indentNewline d ++ indentLoop .out false d true cs) := by
  simp [indentLoop]

theorem indentLoop_colon (d : Nat) (st : Bool) (cs : GoStr) : indentLoop .out false d st (58 :: cs) = 58 :: 32 :: indentLoop .out false d true cs := by
  simp [indentLoop]

theorem indentLoop_quote (d : Nat) (st : Bool) (cs : GoStr) : indentLoop .out false d st (34 :: cs) = 34 :: indentLoop .str false d true cs := by
  simp [indentLoop]

/-- A byte that is nothing but itself outside strings. -/
def PlainByte (c : UInt8) : Prop := ¬ (c = 32 ∨ c = 9 ∨ c = 10 ∨ c = 13) ∧ ¬ (c = 125 ∨ c = 93) ∧ ¬ (c = 123 ∨ c = 91) ∧ c ≠ 44 ∧ c ≠ 58 ∧ c ≠ 34

instance (c : UInt8) : Decidable (PlainByte c) := by unfold PlainByte; exact inferInstance

theorem indentLoop_plain (d : Nat) : ∀ (t : GoStr), (∀ c ∈ t, PlainByte c) → ∀ (st : Bool) (y : GoStr), t ≠ [] → indentLoop .out false d st (t ++ y) = t ++ indentLoop .out false d true y
  | [], _, _, _, h => absurd rfl h
  | c :: t, h, st, y, _ => by
    obtain ⟨h1, h2, h3, h4, h5, h6⟩ := h c (.head _)
    rw [List.cons_append, indentLoop]
    simp only [if_neg h1, if_neg h2, Bool.false_eq_true, if_false, if_neg h3, if_neg h4, if_neg h5, if_neg h6, List.nil_append]
    cases t with
    | nil => rfl
    | cons c' t => rw [indentLoop_plain d (c' :: t) (fun x hx => h x (.tail _ hx)) true y (by simp)]; rfl

theorem NumChar.plain {c : UInt8} (h : NumChar c) : PlainByte c := by
  have hd : FloatFmt.isDigit c = true ∨ c = 43 ∨ c = 45 ∨ c = 46 ∨ c = 101 ∨ c = 69 := h
  rcases hd with hd | rfl | rfl | rfl | rfl | rfl
  · simp only [FloatFmt.isDigit, Bool.and_eq_true, decide_eq_true_eq] at hd
    obtain ⟨h1, h2⟩ := hd
    have ne (x : UInt8) (hx : x < 48 ∨ 57 < x) : c ≠ x := by
      rintro rfl
      rw [UInt8.le_iff_toNat_le] at h1 h2
      rcases hx with hx | hx <;> rw [UInt8.lt_iff_toNat_lt] at hx <;> omega
    exact ⟨by simp [ne 32, ne 9, ne 10, ne 13], by simp [ne 125, ne 93], by simp [ne 123, ne 91], by simp [ne 44], by simp [ne 58], by simp [ne 34]⟩
  all_goals decide

/-- What may follow a value: nothing, a comma or a closing bracket. -/
def AfterValue (r : GoStr) : Prop := jsonSpace r = [] ∨ ∃ c r', jsonSpace r = c :: r' ∧ (c = 44 ∨ c = 125 ∨ c = 93)

theorem AfterValue.numEnd : ∀ {r : GoStr}, AfterValue r → ∀ (d : Nat), NumEnd (indentLoop .out false d true r)
  | [], _, d => by intro c cs h; simp [indentLoop] at h
  | x :: r, h, d => by
    by_cases hx : x = 32 ∨ x = 9 ∨ x = 10 ∨ x = 13
    · rw [indentLoop, if_pos hx]
      split
      · intro c cs h
        simp only [List.cons.injEq] at h
        rw [← h.1]
        rcases hx with rfl | rfl | rfl | rfl <;> decide
      · have h' : AfterValue r := by unfold AfterValue at h ⊢; rw [jsonSpace, if_pos hx] at h; exact h
        exact h'.numEnd d
    · have hs := jsonSpace_cons (cs := r) hx
      rcases h with h | ⟨c, r', h, hc⟩
      · rw [hs] at h; simp at h
      · rw [hs] at h
        simp only [List.cons.injEq] at h
        obtain ⟨rfl, rfl⟩ := h
        intro y cs h
        rcases hc with rfl | hc
        · rw [indentLoop_comma] at h; simp only [List.cons.injEq] at h; rw [← h.1]; decide
        · rw [indentLoop, if_neg hx, if_pos hc] at h
          simp only [Bool.false_eq_true, if_false, indentNewline, List.cons_append, List.cons.injEq] at h
          rw [← h.1]; decide

theorem jsonValue_first {n : Nat} {s : GoStr} {v : JVal} {r : GoStr} (h : jsonValue n s = some (v, r)) : ∃ c r0, jsonSpace s = c :: r0 ∧ ¬ (c = 125 ∨ c = 93) := by
  cases n with
  | zero => simp [jsonValue] at h
  | succ n =>
    rw [jsonValue] at h
    split at h
    · simp at h
    rename_i c r0 hs
    refine ⟨c, r0, hs, ?_⟩
    rintro (rfl | rfl)
    · simp [jsonNumber, jsonWhole, jsonDigits, FloatFmt.isDigit] at h
    · simp [jsonNumber, jsonWhole, jsonDigits, FloatFmt.isDigit] at h

theorem jsonElems_first {n : Nat} {s : GoStr} {v : List JVal} {r : GoStr} (h : jsonElems n s = some (v, r)) : ∃ c r0, jsonSpace s = c :: r0 ∧ ¬ (c = 125 ∨ c = 93) := by
  cases n with
  | zero => simp [jsonElems] at h
  | succ n =>
    rw [jsonElems] at h
    split at h
    · simp at h
    · rename_i h1; exact jsonValue_first h1

theorem jsonMembers_first {n : Nat} {s : GoStr} {v : List (GoStr × JVal)} {r : GoStr} (h : jsonMembers n s = some (v, r)) : ∃ r0, jsonSpace s = 34 :: r0 := by
  cases n with
  | zero => simp [jsonMembers] at h
  | succ n =>
    rw [jsonMembers] at h
    split at h
    · simp at h
    rename_i q r0 hs
    split at h
    · rename_i hq; exact ⟨r0, by rw [hs, hq]⟩
    · simp at h

theorem indentLoop_head (d : Nat) (st : Bool) {c : UInt8} (cs : GoStr) (hc : ¬ (c = 32 ∨ c = 9 ∨ c = 10 ∨ c = 13)) (hc' : ¬ (c = 125 ∨ c = 93)) :
    ∃ x, indentLoop .out false d st (c :: cs) = c :: x := by
  simp only [indentLoop, if_neg hc, if_neg hc', Bool.false_eq_true, if_false, List.nil_append]
  split
  · exact ⟨_, rfl⟩
  split
  · exact ⟨_, rfl⟩
  split
  · exact ⟨_, rfl⟩
  split <;> exact ⟨_, rfl⟩

/-- Indenting does not change what is read. -/
theorem jsonIndent_read (n : Nat) :
    (∀ s v r, jsonValue n s = some (v, r) → AfterValue r → ∀ d st, (st = false ∨ 0 < d) → jsonValue n (indentLoop .out false d st s) = some (v, indentLoop .out false d true r)) ∧
    (∀ s v r, jsonElems n s = some (v, r) → ∀ d, jsonElems n (indentLoop .out false (d + 1) true s) = some (v, indentLoop .out false d true r)) ∧
    (∀ s v r, jsonMembers n s = some (v, r) → ∀ d, jsonMembers n (indentLoop .out false (d + 1) true s) = some (v, indentLoop .out false d true r)) := by
  induction n with
  | zero => simp [jsonValue, jsonElems, jsonMembers]
  | succ n ih =>
    obtain ⟨ihV, ihE, ihM⟩ := ih
    refine ⟨fun s v r h hr d st hst => ?_, fun s v r h d => ?_, fun s v r h d => ?_⟩
    · rw [indentLoop_skip _ _ _ (by rcases hst with h | h <;> simp [h])]
      rw [jsonValue] at h
      split at h
      · simp at h
      rename_i c r0 hs
      have hsp := jsonSpace_head hs
      rw [hs]
      split at h
      · rename_i h123
        rw [indentLoop_open _ _ _ (.inl h123), jsonValue, jsonSpace_cons hsp]
        simp only [if_pos h123]
        rw [indentLoop_skip _ _ _ (by simp)]
        split at h
        · rename_i r' hr'
          obtain ⟨rfl, rfl⟩ := Prod.mk.inj (Option.some.inj h)
          rw [hr', indentLoop_empty _ _ _ (by simp), jsonSpace_cons (by decide)]
          rfl
        · rename_i r' hr'
          obtain ⟨⟨m', rest⟩, h2, h3⟩ := Option.map_eq_some_iff.mp h
          obtain ⟨rfl, rfl⟩ := Prod.mk.inj h3
          obtain ⟨r1, e1⟩ := jsonMembers_first h2
          rw [jsonSpace_idem] at e1
          have := ihM _ _ _ h2 d
          rw [e1] at this ⊢
          rw [indentLoop_first _ _ _ (by decide) (by decide), jsonSpace_newline]
          obtain ⟨x, ex⟩ := indentLoop_head (d + 1) true r1 (c := 34) (by decide) (by decide)
          rw [ex] at this ⊢
          rw [jsonSpace_cons (by decide)]
          split
          · rename_i heq; simp at heq
          · rw [this]; rfl
      rename_i h123
      split at h
      · rename_i h91
        rw [indentLoop_open _ _ _ (.inr h91), jsonValue, jsonSpace_cons hsp]
        simp only [if_neg h123, if_pos h91]
        rw [indentLoop_skip _ _ _ (by simp)]
        split at h
        · rename_i r' hr'
          obtain ⟨rfl, rfl⟩ := Prod.mk.inj (Option.some.inj h)
          rw [hr', indentLoop_empty _ _ _ (by simp), jsonSpace_cons (by decide)]
          rfl
        · rename_i r' hr'
          obtain ⟨⟨m', rest⟩, h2, h3⟩ := Option.map_eq_some_iff.mp h
          obtain ⟨rfl, rfl⟩ := Prod.mk.inj h3
          obtain ⟨c1, r1, e1, hc1⟩ := jsonElems_first h2
          have hsp1 := jsonSpace_head e1
          rw [jsonSpace_idem] at e1
          have := ihE _ _ _ h2 d
          rw [e1] at this ⊢
          rw [indentLoop_first _ _ _ hsp1 hc1, jsonSpace_newline]
          obtain ⟨x, ex⟩ := indentLoop_head (d + 1) true r1 hsp1 hc1
          rw [ex] at this ⊢
          rw [jsonSpace_cons hsp1]
          split
          · rename_i heq; simp only [List.cons.injEq] at heq; exact absurd (.inr heq.1) hc1
          · rw [this]; rfl
      rename_i h91
      split at h
      · rename_i h34
        obtain ⟨⟨b, rest⟩, h2, h3⟩ := Option.map_eq_some_iff.mp h
        obtain ⟨rfl, rfl⟩ := Prod.mk.inj h3
        rw [h34, indentLoop_quote, jsonValue, jsonSpace_cons (by decide)]
        simp only [jsonChars_indent h2 false d true _ rfl]
        rfl
      rename_i h34
      have lit {p : GoStr} (hp : ∀ c ∈ p, PlainByte c) (hne : p ≠ []) {x : JVal} (h : (jsonLiteral p (c :: r0)).map (fun rest => (x, rest)) = some (v, r)) :
          ∃ r1, indentLoop .out false d st (c :: r0) = c :: r1 ∧ (jsonLiteral p (c :: r1)).map (fun rest => (x, rest)) = some (v, indentLoop .out false d true r) := by
        obtain ⟨rest, h2, h3⟩ := Option.map_eq_some_iff.mp h
        obtain ⟨rfl, rfl⟩ := Prod.mk.inj h3
        have e := jsonLiteral_iff.mp h2
        cases p with
        | nil => exact absurd rfl hne
        | cons p0 p =>
          simp only [List.cons_append, List.cons.injEq] at e
          obtain ⟨rfl, rfl⟩ := e
          refine ⟨p ++ indentLoop .out false d true rest, indentLoop_plain d _ hp st rest hne, ?_⟩
          rw [jsonLiteral_iff.mpr (List.cons_append ..).symm]; rfl
      split at h
      · rename_i h116
        obtain ⟨r1, e1, e2⟩ := lit (by decide) (by decide) h
        rw [e1, jsonValue, jsonSpace_cons hsp]
        simp only [if_neg h123, if_neg h91, if_neg h34, if_pos h116, e2]
      rename_i h116
      split at h
      · rename_i h102
        obtain ⟨r1, e1, e2⟩ := lit (by decide) (by decide) h
        rw [e1, jsonValue, jsonSpace_cons hsp]
        simp only [if_neg h123, if_neg h91, if_neg h34, if_neg h116, if_pos h102, e2]
      rename_i h102
      split at h
      · rename_i h110
        obtain ⟨r1, e1, e2⟩ := lit (by decide) (by decide) h
        rw [e1, jsonValue, jsonSpace_cons hsp]
        simp only [if_neg h123, if_neg h91, if_neg h34, if_neg h116, if_neg h102, if_pos h110, e2]
      rename_i h110
      obtain ⟨⟨t, rest⟩, h2, h3⟩ := Option.map_eq_some_iff.mp h
      obtain ⟨rfl, rfl⟩ := Prod.mk.inj h3
      obtain ⟨e, ⟨c', t', e2⟩, e3, e4⟩ := jsonNumber_prefix h2
      have := e4 _ (hr.numEnd d)
      rw [e, indentLoop_plain d t (fun x hx => (e3 x hx).plain) st rest (by rw [e2]; simp)]
      subst e2
      simp only [List.cons_append, List.cons.injEq] at e
      obtain ⟨rfl, _⟩ := e
      rw [List.cons_append] at this
      rw [List.cons_append, jsonValue, jsonSpace_cons hsp]
      simp only [if_neg h123, if_neg h91, if_neg h34, if_neg h116, if_neg h102, if_neg h110, this]
      rfl
    · rw [jsonElems] at h
      split at h
      · simp at h
      rename_i v1 r1 h1
      split at h
      · simp at h
      rename_i c r' hs
      have after : c = 44 ∨ c = 125 ∨ c = 93 → AfterValue r1 := fun hc => .inr ⟨c, r', hs, hc⟩
      split at h
      · rename_i h44
        obtain ⟨⟨m', rest⟩, h2, h3⟩ := Option.map_eq_some_iff.mp h
        obtain ⟨rfl, rfl⟩ := Prod.mk.inj h3
        rw [jsonElems, ihV _ _ _ h1 (after (.inl h44)) (d + 1) true (.inr (by omega))]
        simp only
        rw [indentLoop_skip _ _ _ (by simp), hs, h44, indentLoop_comma, jsonSpace_cons (by decide)]
        simp only [if_true]
        rw [jsonElems_space n (jsonSpace_newline _ _), ihE _ _ _ h2 d]
        rfl
      rename_i h44
      split at h
      · rename_i h93
        obtain ⟨rfl, rfl⟩ := Prod.mk.inj (Option.some.inj h)
        rw [jsonElems, ihV _ _ _ h1 (after (.inr (.inr h93))) (d + 1) true (.inr (by omega))]
        simp only
        rw [indentLoop_skip _ _ _ (by simp), hs, indentLoop_close _ _ _ (.inr h93), jsonSpace_newline, h93, jsonSpace_cons (by decide)]
        simp
      · simp at h
    · rw [jsonMembers] at h
      split at h
      · simp at h
      rename_i q r0 hs0
      split at h
      case isFalse => simp at h
      rename_i h34
      split at h
      · simp at h
      rename_i k r1 hk
      split at h
      · simp at h
      rename_i colon r2 hs1
      split at h
      case isFalse => simp at h
      rename_i h58
      split at h
      · simp at h
      rename_i v1 r3 h1
      split at h
      · simp at h
      rename_i c r' hs
      have after : c = 44 ∨ c = 125 ∨ c = 93 → AfterValue r3 := fun hc => .inr ⟨c, r', hs, hc⟩
      rw [indentLoop_skip _ _ _ (by simp), hs0, h34, indentLoop_quote, jsonMembers, jsonSpace_cons (by decide)]
      simp only [if_true]
      rw [jsonChars_indent hk false (d + 1) true _ rfl]
      simp only
      rw [indentLoop_skip _ _ _ (by simp), hs1, h58, indentLoop_colon, jsonSpace_cons (by decide)]
      simp only [if_true]
      rw [jsonValue_space n (s' := indentLoop .out false (d + 1) true r2) (by rw [jsonSpace, if_pos (by decide)])]
      split at h
      · rename_i h44
        obtain ⟨⟨m', rest⟩, h2, h3⟩ := Option.map_eq_some_iff.mp h
        obtain ⟨rfl, rfl⟩ := Prod.mk.inj h3
        rw [ihV _ _ _ h1 (after (.inl h44)) (d + 1) true (.inr (by omega))]
        simp only
        rw [indentLoop_skip _ _ _ (by simp), hs, h44, indentLoop_comma, jsonSpace_cons (by decide)]
        simp only [if_true]
        rw [jsonMembers_space n (jsonSpace_newline _ _), ihM _ _ _ h2 d]
        rfl
      rename_i h44
      split at h
      · rename_i h125
        obtain ⟨rfl, rfl⟩ := Prod.mk.inj (Option.some.inj h)
        rw [ihV _ _ _ h1 (after (.inr (.inl h125))) (d + 1) true (.inr (by omega))]
        simp only
        rw [indentLoop_skip _ _ _ (by simp), hs, indentLoop_close _ _ _ (.inl h125), jsonSpace_newline, h125, jsonSpace_cons (by decide)]
        simp
      · simp at h

/-- White space after the value is kept. -/
theorem indentLoop_after : ∀ {r : GoStr}, jsonSpace r = [] → indentLoop .out false 0 true r = r
  | [], _ => rfl
  | c :: cs, h => by
    rw [jsonSpace] at h
    split at h
    · rename_i hc
      rw [indentLoop, if_pos hc, if_pos (by simp), indentLoop_after h]
    · simp at h

/-- The indented text is valid, and the value is the same. -/
theorem jsonIndent_value {s s' : GoStr} (h : jsonIndent s = some s') : ∃ v r, jsonValue (2 * s.length + 2) s = some (v, r) ∧ jsonValue (2 * s'.length + 2) s' = some (v, r) ∧ jsonSpace r = [] := by
  unfold jsonIndent at h
  split at h
  · rename_i hv
    have e := Option.some.inj h
    unfold jsonValid at hv
    split at hv
    · rename_i v r h1
      have hr : jsonSpace r = [] := by simpa using hv
      have := (jsonIndent_read _).1 _ _ _ h1 (.inl hr) 0 false (.inl rfl)
      rw [e, indentLoop_after hr] at this
      exact ⟨v, r, h1, ((jsonFuel _).1 _ _ _ this).2 _ (by omega), hr⟩
    · simp at hv
  · simp at h

theorem jsonIndent_decode {s s' : GoStr} (h : jsonIndent s = some s') : jsonDecode s' = jsonDecode s := by
  obtain ⟨v, r, h1, h2, _⟩ := jsonIndent_value h
  unfold jsonDecode
  rw [h1, h2]

end Verif
