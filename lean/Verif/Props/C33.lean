import Verif.Lemmas.Literal

/-!
# C33 Integer literals
-/

namespace Verif

/-- **C33**, the token: the parser takes the longest integer token at the start of the text, if there is one. -/
theorem C33_token (minus : Bool) (l tok rest : GoStr) : LongestToken minus l tok rest ↔ scanInt minus l = some (tok, rest) := by
  have key : scanInt minus l = some (tok, rest) → LongestToken minus l tok rest := by
    intro h
    obtain ⟨e, ht⟩ := scanInt_token h
    refine ⟨e, ht, fun tok' rest' e' ht' => ?_⟩
    obtain ⟨t, r, hs, hl⟩ := scanInt_longest (rest' := rest') ht'
    rw [← e', h] at hs
    cases hs
    exact hl
  refine ⟨fun h => ?_, key⟩
  obtain ⟨e, ht, hmax⟩ := h
  obtain ⟨t, r, hs, hl⟩ := scanInt_longest (rest' := rest) ht
  rw [← e] at hs
  obtain ⟨e', ht'⟩ := scanInt_token hs
  have := hmax t r e' ht'
  have hlen : tok.length = t.length := by omega
  rw [hs]
  rw [e] at e'
  obtain ⟨h1, h2⟩ := List.append_inj e' hlen
  rw [h1, h2]


/-- **C33**, signed columns: if the text begins with an integer token, the cell is accepted exactly if the longest such token is a literal
whose value is in the range of the column type; the cell is that value and reading goes on after the token.  Otherwise it is an error. -/
theorem C33_signed (k : IntKind) (hk : k.signed = true) {l tok rest : GoStr} (h : LongestToken true l tok rest) :
    (∀ v, IntLit tok v → k.lo ≤ v → v ≤ k.hi → readInt k l = .ok (v, rest)) ∧
    ((¬ ∃ v, IntLit tok v ∧ k.lo ≤ v ∧ v ≤ k.hi) → ∃ e, readInt k l = .err e) := by
  obtain ⟨hb2, hb64, hlo, hhi⟩ := k.signed_facts hk
  have hs := (C33_token true l tok rest).1 h
  have hr : readInt k l = (parseInt tok k.bits).bind fun v => .ok (v, rest) := by
    simp only [readInt, hk, hs, if_true]
  rw [hr]
  obtain ⟨_, ht, _⟩ := h
  have hpos : (0 : Int) < ((2 ^ (k.bits - 1) : Nat) : Int) := by
    have := Nat.two_pow_pos (k.bits - 1); omega
  by_cases hp : tok.head? = some 43
  · obtain ⟨ds, rfl⟩ : ∃ ds, tok = 43 :: ds := by
      cases tok with
      | nil => simp at hp
      | cons c ds => simp at hp; subst hp; exact ⟨ds, rfl⟩
    obtain ⟨h1, h2, _, _⟩ := strconvParseInt_signed (base := 10) (by omega) (by omega) hb64 hb2 ds
    have he : parseInt (43 :: ds) k.bits = strconvParseInt (43 :: ds) 10 k.bits := rfl
    rw [he]
    have hlit : ∀ v, IntLit (43 :: ds) v ↔ Numeral 10 ds ∧ v = numeralValue 10 ds := by
      intro v
      constructor
      · intro h
        cases h with
        | unsigned h =>
          exfalso
          cases h with
          | dec h _ => have := h.2 43 (by simp); revert this; decide
        | plus h => exact ⟨h, rfl⟩
      · rintro ⟨h, rfl⟩; exact .plus h
    constructor
    · intro v hv hv1 hv2
      obtain ⟨hn, rfl⟩ := (hlit v).1 hv
      rw [h1 ⟨hn, by omega⟩]; rfl
    · intro hno
      obtain ⟨e, he⟩ := h2 (fun ⟨hn, hlt⟩ => hno ⟨_, (hlit _).2 ⟨hn, rfl⟩, by omega, by omega⟩)
      exact ⟨e, by rw [he]; rfl⟩
  · by_cases hm : tok.head? = some 45
    · obtain ⟨ds, rfl⟩ : ∃ ds, tok = 45 :: ds := by
        cases tok with
        | nil => simp at hm
        | cons c ds => simp at hm; subst hm; exact ⟨ds, rfl⟩
      obtain ⟨_, _, h1, h2⟩ := strconvParseInt_signed (base := 10) (by omega) (by omega) hb64 hb2 ds
      have he : parseInt (45 :: ds) k.bits = strconvParseInt (45 :: ds) 10 k.bits := rfl
      rw [he]
      have hlit : ∀ v, IntLit (45 :: ds) v ↔ Numeral 10 ds ∧ v = -(numeralValue 10 ds : Int) := by
        intro v
        constructor
        · intro h
          cases h with
          | unsigned h =>
            exfalso
            cases h with
            | dec h _ => have := h.2 45 (by simp); revert this; decide
          | minus h => exact ⟨h, rfl⟩
        · rintro ⟨h, rfl⟩; exact .minus h
      constructor
      · intro v hv hv1 hv2
        obtain ⟨hn, rfl⟩ := (hlit v).1 hv
        rw [h1 ⟨hn, by omega⟩]; rfl
      · intro hno
        obtain ⟨e, he⟩ := h2 (fun ⟨hn, hlt⟩ => hno ⟨_, (hlit _).2 ⟨hn, rfl⟩, by omega, by omega⟩)
        exact ⟨e, by rw [he]; rfl⟩
    · obtain ⟨b, ds, hb, hb', hhd, hlit, hpi, _⟩ := parse_unsigned ht hp hm
      obtain ⟨h1, h2⟩ := strconvParseInt_unsigned hb hb' hb64 hb2 ds hhd
      rw [hpi]
      have hlit' : ∀ v, IntLit tok v ↔ Numeral b ds ∧ v = (numeralValue b ds : Int) := by
        intro v
        constructor
        · intro h
          cases h with
          | unsigned h => obtain ⟨hn, e⟩ := (hlit _).1 h; exact ⟨hn, by rw [e]⟩
          | plus => simp at hp
          | minus => simp at hm
        · rintro ⟨h, rfl⟩; exact .unsigned ((hlit _).2 ⟨h, rfl⟩)
      constructor
      · intro v hv hv1 hv2
        obtain ⟨hn, rfl⟩ := (hlit' v).1 hv
        rw [h1 ⟨hn, by omega⟩]; rfl
      · intro hno
        obtain ⟨e, he⟩ := h2 (fun ⟨hn, hlt⟩ => hno ⟨_, (hlit' _).2 ⟨hn, rfl⟩, by omega, by omega⟩)
        exact ⟨e, by rw [he]; rfl⟩

/-- **C33**, unsigned columns: the same for unsigned literals.  A token with a plus sign is always rejected here (see `C33_plus_rejected`). -/
theorem C33_unsigned_partial (k : IntKind) (hk : k.signed = false) {l tok rest : GoStr} (h : LongestToken false l tok rest) :
    (∀ v : Nat, UintLit tok v → (v : Int) ≤ k.hi → readInt k l = .ok ((v : Int), rest)) ∧
    ((¬ ∃ v : Nat, UintLit tok v ∧ (v : Int) ≤ k.hi) → ∃ e, readInt k l = .err e) := by
  obtain ⟨hb2, hb64, hlo, hhi⟩ := k.unsigned_facts hk
  have hs := (C33_token false l tok rest).1 h
  have hr : readInt k l = (parseUint tok k.bits).bind fun v => .ok ((v : Int), rest) := by
    simp only [readInt, hk, hs]; rfl
  rw [hr]
  obtain ⟨_, ht, _⟩ := h
  by_cases hp : tok.head? = some 43
  · obtain ⟨ds, rfl⟩ : ∃ ds, tok = 43 :: ds := by
      cases tok with
      | nil => simp at hp
      | cons c ds => simp at hp; subst hp; exact ⟨ds, rfl⟩
    obtain ⟨_, h2⟩ := strconvParseUint_spec (base := 10) (bits := k.bits) (by omega) (by omega) hb64 (43 :: ds)
    have hno : ¬ Numeral 10 (43 :: ds) := fun h => by have := h.2 43 (by simp); revert this; decide
    constructor
    · intro v hv
      exfalso
      cases hv with
      | dec h _ => exact hno h
    · intro _
      obtain ⟨e, he⟩ := h2 (fun h => hno h.1)
      exact ⟨e, by rw [show parseUint (43 :: ds) k.bits = strconvParseUint (43 :: ds) 10 k.bits from rfl, he]; rfl⟩
  · have hm : tok.head? ≠ some 45 := by
      cases ht with
      | minus h => simp at h
      | dec h => exact (numeral_head (b := 10) (by omega) h.2).2
      | _ => simp
    obtain ⟨b, ds, hb, hb', hhd, hlit, _, hpi⟩ := parse_unsigned ht hp hm
    obtain ⟨h1, h2⟩ := strconvParseUint_spec (bits := k.bits) hb hb' hb64 ds
    rw [hpi]
    constructor
    · intro v hv hv2
      obtain ⟨hn, rfl⟩ := (hlit v).1 hv
      rw [h1 ⟨hn, by omega⟩]; rfl
    · intro hno
      obtain ⟨e, he⟩ := h2 (fun ⟨hn, hlt⟩ => hno ⟨_, (hlit _).2 ⟨hn, rfl⟩, by omega⟩)
      exact ⟨e, by rw [he]; rfl⟩

/-- **C33**, no token: text that does not begin with an integer token is an error. -/
theorem C33_noToken (k : IntKind) (l : GoStr) (h : ¬ ∃ tok rest, LongestToken k.signed l tok rest) : readInt k l = .err .syntaxErr := by
  have : scanInt k.signed l = none := by
    cases hs : scanInt k.signed l with
    | none => rfl
    | some r => exact absurd ⟨r.1, r.2, (C33_token _ l r.1 r.2).2 hs⟩ h
  simp only [readInt, this]

/-- The full claim is false: with a plus sign, which the parser recognises as part of the number in unsigned columns too, every such
number is rejected there (`strconv.ParseUint` takes no sign). -/
theorem C33_plus_rejected (k : IntKind) (hk : k.signed = false) (ds rest : GoStr) (h : LongestToken false (43 :: ds ++ rest) (43 :: ds) rest) :
    ∃ e, readInt k (43 :: ds ++ rest) = .err e := by
  refine (C33_unsigned_partial k hk h).2 ?_
  rintro ⟨v, hv, _⟩
  cases hv with
  | dec h _ => have := h.2 43 (by simp); revert this; decide

example : LongestToken false (gs! "+5 x") (gs! "+5") (gs! " x") := (C33_token _ _ _ _).2 (by decide)
example : readInt .uint (gs! "+5 x") = .err .syntaxErr := by decide +kernel
example : readInt .int (gs! "+5 x") = .ok (5, gs! " x") := by decide +kernel
example : readInt .int (gs! "-0x5") = .ok (0, gs! "x5") := by decide +kernel
example : readInt .int8 (gs! "0x7F 1") = .ok (127, gs! " 1") := by decide +kernel
example : readInt .int8 (gs! "0x80 1") = .err .badRange := by decide +kernel
example : readInt .int8 (gs! "-128") = .ok (-128, []) := by decide +kernel
example : readInt .uint16 (gs! "0177") = .ok (127, []) := by decide +kernel
example : readInt .uint16 (gs! "09") = .err .syntaxErr := by decide +kernel
example : readInt .int16 (gs! "-09") = .ok (-9, []) := by decide +kernel
example : readInt .int16 (gs! "abc") = .err .syntaxErr := by decide +kernel
example : LongestToken true (gs! "0b102") (gs! "0b10") (gs! "2") := (C33_token _ _ _ _).2 (by decide)
example : UintLit (gs! "0b10") 2 := .bin (.inl rfl) ⟨by decide, by decide⟩

end Verif
