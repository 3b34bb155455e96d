import Verif.Spec.Values
import Verif.Lemmas.Scan
import Verif.Lemmas.Lines
import Verif.Lemmas.Utf8
import Verif.Lemmas.Literal

/-!
# Lemmas: strings and runes in table text
-/

namespace Verif

theorem unhex_eq (c : UInt8) : unhex c = if digitValue c < 16 then some (digitValue c) else none := by
  have := u8_all (fun c => decide (unhex c = if digitValue c < 16 then some (digitValue c) else none)) (by decide +kernel) c
  simpa using this

theorem octal_eq (c : UInt8) : octal c = if digitValue c < 8 then some (digitValue c) else none := by
  have := u8_all (fun c => decide (octal c = if digitValue c < 8 then some (digitValue c) else none)) (by decide +kernel) c
  simpa using this

theorem readHex_ok (ds rest : GoStr) (v : Nat) (h : ∀ c ∈ ds, digitValue c < 16) :
    readHex ds.length (ds ++ rest) v = some (ds.foldl (fun v c => v * 16 + digitValue c) v, rest) := by
  induction ds generalizing v with
  | nil => rfl
  | cons d ds ih =>
    have hd := h d (by simp)
    simp only [List.length_cons, List.cons_append, readHex, unhex_eq, if_pos hd, List.foldl_cons]
    exact ih _ fun c hc => h c (by simp [hc])

theorem readHex_inv {n : Nat} {s rest : GoStr} {v w : Nat} (h : readHex n s v = some (w, rest)) :
    ∃ ds, s = ds ++ rest ∧ ds.length = n ∧ (∀ c ∈ ds, digitValue c < 16) ∧ w = ds.foldl (fun v c => v * 16 + digitValue c) v := by
  induction n generalizing s v with
  | zero => simp only [readHex, Option.some.injEq, Prod.mk.injEq] at h; exact ⟨[], by simp [h.2], rfl, by simp, by simp [h.1]⟩
  | succ n ih =>
    match s, h with
    | c :: cs, h =>
      simp only [readHex, unhex_eq] at h
      by_cases hd : digitValue c < 16
      · simp only [if_pos hd] at h
        obtain ⟨ds, e1, e2, e3, e4⟩ := ih h
        exact ⟨c :: ds, by simp [e1], by simp [e2], fun x hx => (List.mem_cons.1 hx).elim (fun e => e ▸ hd) (e3 x), by simp [e4]⟩
      · simp [if_neg hd] at h

/-- A text does not begin with a code point. -/
theorem decode_none (l : GoStr) (hl : l ≠ []) : decodeRune? l = none ↔ ∀ r, ValidRune r → ¬ encodeRune r <+: l := by
  constructor
  · rintro h r hr ⟨m, rfl⟩
    rw [decode_encode hr] at h
    simp at h
  · intro h
    cases hd : decodeRune? l with
    | none => rfl
    | some x =>
      obtain ⟨hr, _, rest, e⟩ := encode_decode (r := x.1) (w := x.2) hd
      exact absurd ⟨rest, e.symm⟩ (h _ hr)

/-- A quote does not complete a code point. -/
theorem decode_none_append (c q : UInt8) (more rest : GoStr) (hq : q.toNat < 0x80) :
    (∀ r, ValidRune r → ¬ encodeRune r <+: c :: more ++ q :: rest) ↔ ∀ r, ValidRune r → ¬ encodeRune r <+: c :: more := by
  constructor
  · intro h r hr hp
    exact h r hr (hp.trans (List.prefix_append _ _))
  · intro h r hr hp
    refine h r hr ?_
    rcases encodeRune_bytes r hr with ⟨_, e⟩ | ⟨_, _, hb⟩
    · rw [e] at hp ⊢
      obtain ⟨m, hm⟩ := hp
      simp only [List.cons_append, List.cons.injEq, List.nil_append] at hm
      exact ⟨more, by simp [hm.1]⟩
    · obtain ⟨m, hm⟩ := hp
      rcases List.append_eq_append_iff.1 hm with ⟨x, e1, e2⟩ | ⟨x, e1, e2⟩
      · exact ⟨x, e1.symm⟩
      · cases x with
        | nil => exact ⟨[], by simpa using e1⟩
        | cons y ys =>
          simp only [List.cons_append, List.cons.injEq] at e2
          have := hb y (by rw [e1]; simp)
          rw [← e2.1] at this
          omega

theorem numeral_of {b : Nat} {ds : GoStr} (h1 : 0 < ds.length) (h : ∀ c ∈ ds, digitValue c < b) : Numeral b ds :=
  ⟨by rintro rfl; simp at h1, h⟩

theorem charBytes_true (v : Nat) : charBytes v true = encodeRune v := by
  unfold charBytes
  by_cases h : v < 0x80
  · rw [if_pos (.inl h)]
    have hv : ValidRune v := by unfold ValidRune; omega
    rcases encodeRune_bytes v hv with ⟨_, e⟩ | ⟨h', _⟩
    · exact e.symm
    · omega
  · rw [if_neg (by simp; omega)]

theorem charBytes_false (v : Nat) : charBytes v false = [UInt8.ofNat v] := by simp [charBytes]

theorem encodeRune_small {v : Nat} (h : v < 0x80) : encodeRune v = [UInt8.ofNat v] := by
  rcases encodeRune_bytes v (by unfold ValidRune; omega) with ⟨_, e⟩ | ⟨h', _⟩
  · exact e
  · omega

/-- A character is read. -/
theorem unquoteChar_text {q : UInt8} (hq : q = 34 ∨ q = 39) {t : GoStr} {v : Nat} {byte : Bool} (h : CharText q t v byte) (rest : GoStr) :
    ∃ mb, unquoteChar (t ++ rest) q = some (v, mb, rest) ∧ charBytes v mb = charValue v byte := by
  have hq92 : (92 : UInt8) ≠ q := by rcases hq with rfl | rfl <;> decide
  have h80 : ¬ (0x80 : UInt8) ≤ 92 := by decide
  have esc : ∀ u, unquoteChar (92 :: u) q = unescape q u := by
    intro u
    simp only [unquoteChar, if_neg hq92, if_neg h80, ne_eq, not_true_eq_false, if_false]
  cases h with
  | @ascii c h1 h2 h3 =>
    refine ⟨false, ?_, ?_⟩
    · have : ¬ (0x80 : UInt8) ≤ c := by rw [UInt8.le_iff_toNat_le]; simpa using h1
      simp only [List.cons_append, List.nil_append, unquoteChar, if_neg h2, if_neg this, ne_eq, h3, not_false_eq_true, if_true]
    · rw [charBytes_false, charValue, if_neg (by simp), encodeRune_small h1]
  | other h1 h2 =>
    refine ⟨true, ?_, by rw [charBytes_true]; rfl⟩
    have hd := decode_encode h2 rest
    rcases encodeRune_bytes v h2 with ⟨h', _⟩ | ⟨_, hne, hb⟩
    · omega
    · cases he : encodeRune v with
      | nil => exact absurd he hne
      | cons c cs =>
        rw [he] at hd hb
        have hc := hb c (by simp)
        have hcq : c ≠ q := by rintro rfl; rcases hq with rfl | rfl <;> revert hc <;> decide
        have hc80 : (0x80 : UInt8) ≤ c := by rw [UInt8.le_iff_toNat_le]; simpa using hc
        simp only [List.cons_append] at hd ⊢
        simp only [unquoteChar, if_neg hcq, if_pos hc80, hd]
        simp
  | escape h =>
    refine ⟨false, ?_, ?_⟩
    · rw [List.cons_append, esc]
      simp only [List.mem_cons, Prod.mk.injEq, List.not_mem_nil, or_false] at h
      rcases h with ⟨rfl, rfl⟩ | ⟨rfl, rfl⟩ | ⟨rfl, rfl⟩ | ⟨rfl, rfl⟩ | ⟨rfl, rfl⟩ | ⟨rfl, rfl⟩ | ⟨rfl, rfl⟩ | ⟨rfl, rfl⟩ <;> simp [unescape]
    · rw [charBytes_false, charValue, if_neg (by simp), encodeRune_small]
      simp only [List.mem_cons, Prod.mk.injEq, List.not_mem_nil, or_false] at h
      omega
  | quote =>
    refine ⟨false, ?_, ?_⟩
    · rw [List.cons_append, esc]
      rcases hq with rfl | rfl <;> simp [unescape]
    · rw [charBytes_false, charValue, if_neg (by simp), encodeRune_small]
      rcases hq with rfl | rfl <;> decide
  | hex2 h1 h2 =>
    refine ⟨false, ?_, by rw [charBytes_false]; rfl⟩
    rw [List.cons_append, esc]
    have := readHex_ok _ rest 0 h1.2
    rw [h2] at this
    simp [unescape, this, numeralValue]
  | hex4 h1 h2 h3 =>
    refine ⟨true, ?_, by rw [charBytes_true]; rfl⟩
    rw [List.cons_append, esc]
    have := readHex_ok _ rest 0 h1.2
    rw [h2] at this
    simp only [numeralValue] at h3 ⊢
    simp [unescape, this, h3]
  | hex8 h1 h2 h3 =>
    refine ⟨true, ?_, by rw [charBytes_true]; rfl⟩
    rw [List.cons_append, esc]
    have := readHex_ok _ rest 0 h1.2
    rw [h2] at this
    simp only [numeralValue] at h3 ⊢
    simp [unescape, this, h3]
  | @oct ds h1 h2 h3 =>
    refine ⟨false, ?_, by rw [charBytes_false]; rfl⟩
    rw [List.cons_append, esc]
    match ds, h2, h1, h3 with
    | [a, b, c], _, h1, h3 =>
      have ha := h1.2 a (by simp)
      have hb := h1.2 b (by simp)
      have hc := h1.2 c (by simp)
      have ha' := u8_all (fun a => !(decide (digitValue a < 8)) || (decide (48 ≤ a ∧ a ≤ 55 ∧ a.toNat - 48 = digitValue a) &&
        decide (a ≠ 97 ∧ a ≠ 98 ∧ a ≠ 102 ∧ a ≠ 110 ∧ a ≠ 114 ∧ a ≠ 116 ∧ a ≠ 118 ∧ a ≠ 120 ∧ a ≠ 117 ∧ a ≠ 85))) (by decide +kernel) a
      simp [ha] at ha'
      obtain ⟨⟨x1, x2, x3⟩, y⟩ := ha'
      have hv : numeralValue 8 [a, b, c] = (digitValue a * 8 + digitValue b) * 8 + digitValue c := by simp [numeralValue]
      rw [hv] at h3 ⊢
      have : ¬ 255 < (digitValue a * 8 + digitValue b) * 8 + digitValue c := by omega
      simp only [List.cons_append, List.nil_append, unescape]
      simp only [y, if_false, false_or, or_self, octal_eq, if_pos hb, if_pos hc, x1, x2, x3, true_and, and_self, if_true, this]

/-- What is read as a character. -/
theorem unquoteChar_inv {q : UInt8} (hq : q = 34 ∨ q = 39) {s rest : GoStr} {v : Nat} {mb : Bool} (h : unquoteChar s q = some (v, mb, rest)) :
    (∃ t byte, s = t ++ rest ∧ CharText q t v byte ∧ charBytes v mb = charValue v byte) ∨
    (∃ c, s = c :: rest ∧ 0x80 ≤ c.toNat ∧ decodeRune? s = none ∧ v = 0xFFFD ∧ mb = true) := by
  have wrap : ∀ t, s = t ++ rest → ∀ byte, CharText q t v byte → (∃ t byte, s = t ++ rest ∧ CharText q t v byte ∧ charBytes v mb = charValue v byte) := by
    intro t e byte ht
    obtain ⟨mb', h1, h2⟩ := unquoteChar_text hq ht rest
    rw [← e, h] at h1
    simp only [Option.some.injEq, Prod.mk.injEq, true_and, and_true] at h1
    rw [← h1] at h2
    exact ⟨t, byte, e, ht, h2⟩
  match s, h, wrap with
  | c :: cs, h, wrap =>
    simp only [unquoteChar] at h
    split at h
    · simp at h
    · next hcq =>
      split at h
      · next h80 =>
        have h80' : 0x80 ≤ c.toNat := by rw [UInt8.le_iff_toNat_le] at h80; simpa using h80
        cases hd : decodeRune? (c :: cs) with
        | none =>
          simp only [hd, Option.some.injEq, Prod.mk.injEq] at h
          obtain ⟨rfl, rfl, rfl⟩ := h
          exact .inr ⟨c, rfl, h80', rfl, rfl, rfl⟩
        | some x =>
          simp only [hd, Option.some.injEq, Prod.mk.injEq] at h
          obtain ⟨hr, hw, r', e⟩ := encode_decode (r := x.1) (w := x.2) hd
          rw [h.1] at hr hw e
          left
          refine wrap (encodeRune v) ?_ false (.other ?_ hr)
          · rw [e]
            congr 1
            rcases encodeRune_bytes v hr with ⟨hlt, e2⟩ | ⟨_, hne, hb⟩
            · rw [e2] at e
              simp only [List.cons_append, List.nil_append, List.cons.injEq] at e
              rw [e.1, u8_toNat_ofNat (by omega)] at h80'
              omega
            · cases he : encodeRune v with
              | nil => exact absurd he hne
              | cons y ys =>
                rw [he] at e hw
                simp only [List.cons_append, List.cons.injEq] at e
                rw [← h.2.2, hw, e.2]
                simp
          · rcases encodeRune_bytes v hr with ⟨hlt, e2⟩ | ⟨h', _⟩
            · rw [e2] at e
              simp only [List.cons_append, List.nil_append, List.cons.injEq] at e
              rw [e.1, u8_toNat_ofNat (by omega)] at h80'
              omega
            · exact h'
      · next h80 =>
        have h80' : c.toNat < 0x80 := by rw [UInt8.le_iff_toNat_le] at h80; simpa using h80
        split at h
        · next h92 =>
          simp only [Option.some.injEq, Prod.mk.injEq] at h
          obtain ⟨rfl, rfl, rfl⟩ := h
          exact .inl (wrap [c] rfl false (.ascii h80' hcq h92))
        · next h92 =>
          have h92 : c = 92 := by simpa using h92
          subst h92
          left
          match cs, h, wrap with
          | e :: cs, h, wrap =>
            have simple : ∀ {x : UInt8} {y : Nat}, (x, y) ∈ [((97 : UInt8), 7), (98, 8), (102, 12), (110, 10), (114, 13), (116, 9), (118, 11), (92, 92)] →
                e = x → y = v → cs = rest → ∃ t byte, 92 :: e :: cs = t ++ rest ∧ CharText q t v byte ∧ charBytes v mb = charValue v byte := by
              rintro x y hm rfl rfl rfl
              exact wrap [92, e] rfl false (.escape hm)
            simp only [unescape] at h
            by_cases he : e = 97
            · rw [if_pos he] at h; simp only [Option.some.injEq, Prod.mk.injEq] at h; exact simple (by simp) he h.1 h.2.2
            rw [if_neg he] at h
            clear he
            by_cases he : e = 98
            · rw [if_pos he] at h; simp only [Option.some.injEq, Prod.mk.injEq] at h; exact simple (by simp) he h.1 h.2.2
            rw [if_neg he] at h
            clear he
            by_cases he : e = 102
            · rw [if_pos he] at h; simp only [Option.some.injEq, Prod.mk.injEq] at h; exact simple (by simp) he h.1 h.2.2
            rw [if_neg he] at h
            clear he
            by_cases he : e = 110
            · rw [if_pos he] at h; simp only [Option.some.injEq, Prod.mk.injEq] at h; exact simple (by simp) he h.1 h.2.2
            rw [if_neg he] at h
            clear he
            by_cases he : e = 114
            · rw [if_pos he] at h; simp only [Option.some.injEq, Prod.mk.injEq] at h; exact simple (by simp) he h.1 h.2.2
            rw [if_neg he] at h
            clear he
            by_cases he : e = 116
            · rw [if_pos he] at h; simp only [Option.some.injEq, Prod.mk.injEq] at h; exact simple (by simp) he h.1 h.2.2
            rw [if_neg he] at h
            clear he
            by_cases he : e = 118
            · rw [if_pos he] at h; simp only [Option.some.injEq, Prod.mk.injEq] at h; exact simple (by simp) he h.1 h.2.2
            rw [if_neg he] at h
            clear he
            by_cases he : e = 120
            · rw [if_pos he] at h
              subst he
              simp only [Option.map_eq_some_iff, Prod.mk.injEq, Prod.exists] at h
              obtain ⟨a, b, h1, rfl, rfl, rfl⟩ := h
              obtain ⟨ds, e1, e2, e3, e4⟩ := readHex_inv h1
              rw [e4]
              have ht : CharText q (92 :: 120 :: ds) (numeralValue 16 ds) true := .hex2 (numeral_of (by omega) e3) e2
              rw [e4] at wrap
              exact wrap _ (by rw [e1]; rfl) true ht
            rw [if_neg he] at h
            clear he
            by_cases he : e = 117 ∨ e = 85
            · rw [if_pos he] at h
              split at h
              · next a b h1 =>
                split at h
                · next hv =>
                  simp only [Option.some.injEq, Prod.mk.injEq] at h
                  obtain ⟨rfl, rfl, rfl⟩ := h
                  obtain ⟨ds, e1, e2, e3, e4⟩ := readHex_inv h1
                  rw [e4] at wrap hv ⊢
                  rcases he with rfl | rfl
                  · exact wrap _ (by rw [e1]; rfl) false (.hex4 (numeral_of (by rw [e2]; decide) e3) (by rw [e2]; rfl) hv)
                  · exact wrap _ (by rw [e1]; rfl) false (.hex8 (numeral_of (by rw [e2]; decide) e3) (by rw [e2]; rfl) hv)
                · simp at h
              · simp at h
            rw [if_neg he] at h
            clear he
            by_cases he : 48 ≤ e ∧ e ≤ 55
            · rw [if_pos he] at h
              match cs, h, wrap with
              | d :: f :: cs, h, wrap =>
                simp only [octal_eq] at h
                by_cases hd : digitValue d < 8
                · by_cases hf : digitValue f < 8
                  · simp only [if_pos hd, if_pos hf] at h
                    split at h
                    · simp at h
                    · next hle =>
                      simp only [Option.some.injEq, Prod.mk.injEq] at h
                      obtain ⟨rfl, rfl, rfl⟩ := h
                      have he' := u8_all (fun a => !(decide (48 ≤ a ∧ a ≤ 55)) || decide (digitValue a < 8 ∧ a.toNat - 48 = digitValue a)) (by decide +kernel) e
                      simp [he] at he'
                      have hval : ((e.toNat - 48) * 8 + digitValue d) * 8 + digitValue f = numeralValue 8 [e, d, f] := by simp [numeralValue, he'.2]
                      rw [hval] at wrap hle ⊢
                      refine wrap (92 :: [e, d, f]) rfl true (.oct (numeral_of (by simp) ?_) rfl (by omega))
                      simp [he'.1, hd, hf]
                  · simp [if_neg hf] at h
                · simp [if_neg hd] at h
              | [], h, _ => simp at h
              | [_], h, _ => simp at h
            rw [if_neg he] at h
            clear he
            by_cases he : e = 92
            · rw [if_pos he] at h; simp only [Option.some.injEq, Prod.mk.injEq] at h; exact simple (by simp) he h.1 h.2.2
            rw [if_neg he] at h
            clear he
            by_cases he2 : e = 39 ∨ e = 34
            · rw [if_pos he2] at h
              by_cases heq : e ≠ q
              · rw [if_pos heq] at h; simp at h
              · rw [if_neg heq] at h
                have heq : e = q := by simpa using heq
                simp only [Option.some.injEq, Prod.mk.injEq] at h
                obtain ⟨rfl, rfl, rfl⟩ := h
                subst heq
                exact wrap [92, e] rfl false .quote
            · rw [if_neg he2] at h; simp at h
          | [], h, _ => simp [unescape] at h

/-- Digits are neither quotes nor backslashes. -/
theorem digit_plain {c : UInt8} (h : digitValue c < 16) : c ≠ 34 ∧ c ≠ 92 ∧ c ≠ 39 ∧ c ≠ 10 := by
  refine ⟨?_, ?_, ?_, ?_⟩ <;> rintro rfl <;> revert h <;> decide

theorem digit_le {b : Nat} (hb : b ≤ 16) {ds : GoStr} (h : ∀ c ∈ ds, digitValue c < b) : ∀ c ∈ ds, c ≠ 34 ∧ c ≠ 92 ∧ c ≠ 39 ∧ c ≠ 10 :=
  fun c hc => digit_plain (by have := h c hc; omega)

theorem CharText.head {q : UInt8} (hq : q = 34 ∨ q = 39) {t : GoStr} {v : Nat} {byte : Bool} (h : CharText q t v byte) : ∃ c cs, t = c :: cs ∧ c ≠ q := by
  have h92 : (92 : UInt8) ≠ q := by rcases hq with rfl | rfl <;> decide
  cases h with
  | ascii _ h2 _ => exact ⟨_, _, rfl, h2⟩
  | other h1 h2 =>
    rcases encodeRune_bytes v h2 with ⟨h', _⟩ | ⟨_, hne, hb⟩
    · omega
    · cases he : encodeRune v with
      | nil => exact absurd he hne
      | cons c cs =>
        refine ⟨c, cs, rfl, ?_⟩
        rintro rfl
        have := hb c (by rw [he]; simp)
        rcases hq with rfl | rfl <;> revert this <;> decide
  | _ => exact ⟨_, _, rfl, h92⟩

theorem scanQuoted_char {t : GoStr} {v : Nat} {byte : Bool} (h : CharText 34 t v byte) (tail : GoStr) :
    scanQuoted (t ++ tail) = (scanQuoted tail).map fun (tok, rest) => (t ++ tok, rest) := by
  cases h with
  | ascii h1 h2 h3 => exact scanQuoted_plain _ tail (by simp [h2, h3])
  | other h1 h2 =>
    exact scanQuoted_plain _ tail fun c hc =>
      ⟨encodeRune_avoid h2 (n := 34) (by decide) (by simp; omega) c hc, encodeRune_avoid h2 (n := 92) (by decide) (by simp; omega) c hc⟩
  | escape => exact scanQuoted_escape _ [] tail (by simp)
  | quote => exact scanQuoted_escape _ [] tail (by simp)
  | hex2 h => exact scanQuoted_escape _ _ tail fun c hc => ⟨(digit_le (by decide) h.2 c hc).1, (digit_le (by decide) h.2 c hc).2.1⟩
  | hex4 h => exact scanQuoted_escape _ _ tail fun c hc => ⟨(digit_le (by decide) h.2 c hc).1, (digit_le (by decide) h.2 c hc).2.1⟩
  | hex8 h => exact scanQuoted_escape _ _ tail fun c hc => ⟨(digit_le (by decide) h.2 c hc).1, (digit_le (by decide) h.2 c hc).2.1⟩
  | @oct ds h h3 _ =>
    match ds, h3, h with
    | d :: ds, _, h =>
      exact scanQuoted_escape d ds tail fun c hc => ⟨(digit_le (by decide) h.2 c (by simp [hc])).1, (digit_le (by decide) h.2 c (by simp [hc])).2.1⟩

/-- The first byte of what is no code point. -/
theorem bad_byte {c : UInt8} {more : GoStr} (h : ∀ r, ValidRune r → ¬ encodeRune r <+: c :: more) : 0x80 ≤ c.toNat := by
  refine Nat.le_of_not_lt fun hlt => h c.toNat (by unfold ValidRune; omega) ?_
  rw [encodeRune_small hlt]
  exact ⟨more, by simp⟩

theorem StringText.scan {body s : GoStr} (h : StringText body s) (rest : GoStr) : scanQuoted (body ++ 34 :: rest) = some (body ++ [34], rest) := by
  induction h with
  | nil => rw [List.nil_append, scanQuoted.eq_def]; simp
  | char h _ ih => rw [List.append_assoc, scanQuoted_char h, ih]; simp
  | @bad c more s h _ ih =>
    have hc := bad_byte h
    have : scanQuoted ([c] ++ (more ++ 34 :: rest)) = _ := scanQuoted_plain [c] _ (by
      simp only [List.mem_singleton, forall_eq]
      exact ⟨by rintro rfl; revert hc; decide, by rintro rfl; revert hc; decide⟩)
    rw [show c :: more ++ 34 :: rest = [c] ++ (more ++ 34 :: rest) by simp, this, ih]
    simp

theorem StringText.unquote {body s : GoStr} (h : StringText body s) (hnl : 10 ∉ body) (rest : GoStr) (n : Nat) (hn : body.length < n) :
    unquoteLoop n (body ++ 34 :: rest) = some (s, rest) := by
  induction h generalizing n with
  | nil =>
    match n, hn with
    | n + 1, _ => rfl
  | @char t more s v byte h _ ih =>
    match n, hn with
    | n + 1, hn =>
      obtain ⟨c, cs, rfl, hc⟩ := h.head (.inl rfl)
      obtain ⟨mb, hu, hb⟩ := unquoteChar_text (.inl rfl) h (more ++ 34 :: rest)
      simp only [List.cons_append, List.mem_cons, List.mem_append, not_or] at hnl
      have hih := ih hnl.2.2 n (by simp only [List.length_append, List.length_cons] at hn; omega)
      rw [List.append_assoc]
      simp only [List.cons_append] at hu ⊢
      rw [unquoteLoop, if_neg hc, if_neg (fun e => hnl.1 e.symm), hu]
      simp [hih, hb]
  | @bad c more s h _ ih =>
    match n, hn with
    | n + 1, hn =>
      have hc := bad_byte h
      simp only [List.mem_cons, not_or] at hnl
      have hih := ih hnl.2 n (by simp only [List.length_cons] at hn; omega)
      have hd := (decode_none (c :: more ++ 34 :: rest) (by simp)).2 ((decode_none_append c 34 more rest (by decide)).2 h)
      have h80 : (0x80 : UInt8) ≤ c := by rw [UInt8.le_iff_toNat_le]; simpa using hc
      have h34 : c ≠ 34 := by rintro rfl; revert hc; decide
      simp only [List.cons_append] at hd ⊢
      rw [unquoteLoop, if_neg h34, if_neg (fun e => hnl.1 e.symm)]
      simp only [unquoteChar, if_neg h34, if_pos h80, hd, hih, Option.map_some, charBytes_true]

theorem unquoteLoop_inv {n : Nat} {s bs rem : GoStr} (h : unquoteLoop n s = some (bs, rem)) : ∃ body, s = body ++ 34 :: rem ∧ StringText body bs := by
  induction n generalizing s bs with
  | zero => simp [unquoteLoop] at h
  | succ n ih =>
    match s, h with
    | [], h => simp [unquoteLoop] at h
    | c :: cs, h =>
      rw [unquoteLoop] at h
      by_cases h34 : c = 34
      · rw [if_pos h34] at h
        simp only [Option.some.injEq, Prod.mk.injEq] at h
        obtain ⟨rfl, rfl⟩ := h
        exact ⟨[], by simp [h34], .nil⟩
      · rw [if_neg h34] at h
        by_cases h10 : c = 10
        · rw [if_pos h10] at h; simp at h
        · rw [if_neg h10] at h
          cases hu : unquoteChar (c :: cs) 34 with
          | none => simp [hu] at h
          | some x =>
            obtain ⟨v, mb, r⟩ := x
            simp only [hu, Option.map_eq_some_iff, Prod.mk.injEq, Prod.exists] at h
            obtain ⟨bs', rem', h1, rfl, rfl⟩ := h
            obtain ⟨body, e, hb⟩ := ih h1
            rcases unquoteChar_inv (.inl rfl) hu with ⟨t, byte, e1, e2, e3⟩ | ⟨c', e1, e2, e3, rfl, rfl⟩
            · refine ⟨t ++ body, by rw [e1, e]; simp, ?_⟩
              rw [e3]
              exact .char e2 hb
            · simp only [List.cons.injEq] at e1
              obtain ⟨rfl, e1⟩ := e1
              refine ⟨c :: body, by rw [e1, e]; simp, ?_⟩
              rw [charBytes_true]
              refine .bad ?_ hb
              rw [e1, e] at e3
              exact (decode_none_append c 34 body rem' (by decide)).1 ((decode_none _ (by simp)).1 e3)

theorem scanQuoted_eq {l tok rest : GoStr} (h : scanQuoted l = some (tok, rest)) : l = tok ++ rest := by
  suffices ∀ n, ∀ l : GoStr, l.length ≤ n → ∀ tok rest, scanQuoted l = some (tok, rest) → l = tok ++ rest from this _ _ (Nat.le_refl _) _ _ h
  intro n
  induction n with
  | zero =>
    intro l hl tok rest h
    match l, hl with
    | [], _ => simp [scanQuoted] at h
  | succ n ih =>
    intro l hl tok rest h
    match l, hl with
    | [], _ => simp [scanQuoted] at h
    | c :: cs, hl =>
      rw [scanQuoted.eq_def] at h
      simp only at h
      by_cases h34 : c = 34
      · rw [if_pos h34] at h
        simp only [Option.some.injEq, Prod.mk.injEq] at h
        rw [h34, ← h.1, ← h.2]; rfl
      · rw [if_neg h34] at h
        by_cases h92 : c = 92
        · rw [if_pos h92] at h
          match cs, hl with
          | [], _ => simp at h
          | d :: ds, hl =>
            simp only [Option.map_eq_some_iff, Prod.mk.injEq, Prod.exists] at h
            obtain ⟨a, b, h1, rfl, rfl⟩ := h
            have := ih ds (by simp at hl; omega) _ _ h1
            rw [h92, this]; rfl
        · rw [if_neg h92] at h
          simp only [Option.map_eq_some_iff, Prod.mk.injEq, Prod.exists] at h
          obtain ⟨a, b, h1, rfl, rfl⟩ := h
          have := ih cs (by simpa using hl) _ _ h1
          rw [this]; rfl

/-- A string is read exactly if the text begins with one. -/
theorem readString_iff {l : GoStr} (hnl : 10 ∉ l) (s rest : GoStr) : readString l = .ok (s, rest) ↔ ∃ body, l = 34 :: body ++ 34 :: rest ∧ StringText body s := by
  constructor
  · intro h
    unfold readString at h
    split at h
    · next cs =>
      split at h
      · simp at h
      · next tok rest' hs =>
        split at h
        · simp at h
        · next s' hu =>
          simp only [Out.ok.injEq, Prod.mk.injEq] at h
          obtain ⟨rfl, rfl⟩ := h
          unfold strconvUnquote at hu
          split at hu
          · next cs' heq =>
            simp only [List.cons.injEq, true_and] at heq
            subst heq
            split at hu
            · next bs hl =>
              simp only [Option.some.injEq] at hu
              subst hu
              obtain ⟨body, e, hb⟩ := unquoteLoop_inv hl
              refine ⟨body, ?_, hb⟩
              rw [scanQuoted_eq hs, e]
              simp
            · simp at hu
          · simp at hu
    · simp at h
  · rintro ⟨body, rfl, hb⟩
    simp only [List.cons_append, List.mem_cons, List.mem_append, not_or] at hnl
    simp only [List.cons_append, readString]
    rw [hb.scan]
    simp only [strconvUnquote]
    rw [hb.unquote hnl.2.1 [] _ (by simp; omega)]

theorem runeBody_plain (c : UInt8) (cs rest : GoStr) (h39 : ∀ x ∈ c :: cs, x ≠ 39) (h92 : c ≠ 92)
    (hw : charWidth (c :: cs ++ 39 :: rest) = (c :: cs).length) : runeBody (c :: cs ++ 39 :: rest) = some (c :: cs, rest) := by
  have hs := splitFirst_append _ rest h39
  have hl : runeLong (c :: cs ++ 39 :: rest) = none := by
    simp only [List.cons_append] at hw ⊢
    simp only [runeLong, if_neg (h39 c (by simp)), hw]
    have : (c :: (cs ++ 39 :: rest)).drop (c :: cs).length = 39 :: rest := by
      have := List.drop_left (l₁ := c :: cs) (l₂ := 39 :: rest)
      simpa using this
    rw [this]
    rfl
  simp only [List.cons_append] at hl hs ⊢
  rw [Verif.runeBody]
  · rw [hl, hs]
  · intro rest' e
    simp only [List.cons.injEq] at e
    exact h92 e.1
  · intro rest' e
    simp only [List.cons.injEq] at e
    exact h92 e.1

theorem RuneText.scan {body : GoStr} {v : Nat} (h : RuneText body v) (rest : GoStr) : runeBody (body ++ 39 :: rest) = some (body, rest) := by
  cases h with
  | @bad c hc =>
    refine runeBody_plain c [] rest ?_ (by rintro rfl; revert hc; decide) ?_
    · simp only [List.mem_singleton, forall_eq]
      rintro rfl; revert hc; decide
    · have : decodeRune? ([c] ++ 39 :: rest) = none := by
        rw [decode_none _ (by simp)]
        refine (decode_none_append c 39 [] rest (by decide)).2 fun r hr hp => ?_
        obtain ⟨m, hm⟩ := hp
        rcases encodeRune_bytes r hr with ⟨h1, e⟩ | ⟨h1, hne, hb⟩
        · rw [e] at hm
          simp only [List.cons_append, List.cons.injEq, List.nil_append] at hm
          rw [← hm.1, u8_toNat_ofNat (by omega)] at hc
          omega
        · have hd := decode_encode hr m
          rw [hm] at hd
          have hlen : (encodeRune r).length ≤ 1 := by
            have := congrArg List.length hm
            simp at this; omega
          unfold decodeRune? at hd
          simp only at hd
          split at hd
          · omega
          · split at hd
            · simp at hd
            · split at hd
              · simp at hd
              · split at hd
                · simp at hd
                · split at hd <;> simp at hd
      simp only [charWidth, this]; rfl
  | char h =>
    cases h with
    | @ascii c h1 h2 h3 =>
      refine runeBody_plain c [] rest (by simp [h2]) h3 ?_
      have := decode_encode (r := c.toNat) (by unfold ValidRune; omega) (39 :: rest)
      rw [encodeRune_small h1, UInt8.ofNat_toNat] at this
      simp only [charWidth, this]
    | other h1 h2 =>
      have a39 := encodeRune_avoid h2 (n := 39) (by decide) (by simp; omega)
      have a92 := encodeRune_avoid h2 (n := 92) (by decide) (by simp; omega)
      have hd := decode_encode h2 (39 :: rest)
      cases he : encodeRune v with
      | nil =>
        rcases encodeRune_bytes v h2 with ⟨h', _⟩ | ⟨_, hne, _⟩
        · omega
        · exact absurd he hne
      | cons c cs =>
        rw [he] at a39 a92 hd
        exact runeBody_plain c cs rest a39 (a92 c (by simp)) (by simp only [charWidth, hd])
    | escape h =>
      simp only [List.mem_cons, Prod.mk.injEq, List.not_mem_nil, or_false] at h
      rcases h with ⟨rfl, rfl⟩ | ⟨rfl, rfl⟩ | ⟨rfl, rfl⟩ | ⟨rfl, rfl⟩ | ⟨rfl, rfl⟩ | ⟨rfl, rfl⟩ | ⟨rfl, rfl⟩ | ⟨rfl, rfl⟩
      · exact runeBody_escape _ [] rest (by decide) (by decide) (by simp) (by simp)
      · exact runeBody_escape _ [] rest (by decide) (by decide) (by simp) (by simp)
      · exact runeBody_escape _ [] rest (by decide) (by decide) (by simp) (by simp)
      · rfl
      · exact runeBody_escape _ [] rest (by decide) (by decide) (by simp) (by simp)
      · exact runeBody_escape _ [] rest (by decide) (by decide) (by simp) (by simp)
      · exact runeBody_escape _ [] rest (by decide) (by decide) (by simp) (by simp)
      · exact runeBody_escape _ [] rest (by decide) (by decide) (by simp) (by simp)
    | quote => rfl
    | hex2 h => exact runeBody_escape _ _ rest (by decide) (by decide) (fun e => absurd e (by decide)) fun c hc => (digit_le (by decide) h.2 c hc).2.2.1
    | hex4 h => exact runeBody_escape _ _ rest (by decide) (by decide) (fun e => absurd e (by decide)) fun c hc => (digit_le (by decide) h.2 c hc).2.2.1
    | hex8 h => exact runeBody_escape _ _ rest (by decide) (by decide) (fun e => absurd e (by decide)) fun c hc => (digit_le (by decide) h.2 c hc).2.2.1
    | @oct ds h h3 _ =>
      match ds, h3, h with
      | d :: ds, _, h =>
        have hd := h.2 d (by simp)
        refine runeBody_escape d ds rest (digit_plain (by omega)).2.2.1 ?_ (fun e => absurd e (digit_plain (by omega)).2.1)
          fun c hc => (digit_le (by decide) h.2 c (by simp [hc])).2.2.1
        rintro rfl; revert hd; decide

theorem splitFirst_eq {l a b : GoStr} (h : splitFirst l = some (a, b)) : l = a ++ 39 :: b ∧ 39 ∉ a := by
  induction l generalizing a with
  | nil => simp [splitFirst] at h
  | cons c cs ih =>
    rw [splitFirst] at h
    by_cases hc : c = 39
    · rw [if_pos hc] at h
      simp only [Option.some.injEq, Prod.mk.injEq] at h
      rw [← h.1, ← h.2, hc]; simp
    · rw [if_neg hc] at h
      simp only [Option.map_eq_some_iff, Prod.mk.injEq, Prod.exists] at h
      obtain ⟨x, y, h1, rfl, rfl⟩ := h
      obtain ⟨e, hn⟩ := ih h1
      exact ⟨by rw [e]; rfl, by simp only [List.mem_cons, not_or]; exact ⟨fun e => hc e.symm, hn⟩⟩

theorem splitLast_eq {l a b : GoStr} (h : splitLast l = some (a, b)) : l = a ++ 39 :: b := by
  induction l generalizing a with
  | nil => simp [splitLast] at h
  | cons c cs ih =>
    rw [splitLast] at h
    cases hs : splitLast cs with
    | some x =>
      simp only [hs, Option.some.injEq, Prod.mk.injEq] at h
      obtain ⟨rfl, h2⟩ := h
      have := ih (a := x.1) (by rw [hs, ← h2])
      rw [List.cons_append, ← this]
    | none =>
      simp only [hs] at h
      by_cases hc : c = 39
      · rw [if_pos hc] at h
        simp only [Option.some.injEq, Prod.mk.injEq] at h
        rw [← h.1, ← h.2, hc]; simp
      · rw [if_neg hc] at h; simp at h

theorem runeBody_eq {l a b : GoStr} (h : runeBody l = some (a, b)) : l = a ++ 39 :: b := by
  unfold runeBody at h
  split at h
  · simp only [Option.some.injEq, Prod.mk.injEq] at h; rw [← h.1, ← h.2]; rfl
  · simp only [Option.some.injEq, Prod.mk.injEq] at h; rw [← h.1, ← h.2]; rfl
  · split at h
    · next r hr =>
      simp only [Option.some.injEq] at h
      subst h
      unfold runeLong at hr
      split at hr
      · simp at hr
      · next c cs _ _ =>
        split at hr
        · simp at hr
        · simp only at hr
          split at hr
          · next x more hm =>
            split at hr
            · simp only [Option.map_eq_some_iff, Prod.mk.injEq, Prod.exists] at hr
              obtain ⟨y, z, h1, rfl, rfl⟩ := hr
              have := splitLast_eq h1
              have hd := List.take_append_drop (charWidth (c :: cs)) (c :: cs)
              rw [hm, this] at hd
              exact hd.symm.trans (by simp)
            · simp at hr
          · simp at hr
    · exact (splitFirst_eq h).1

/-- A rune is read exactly if the text has one after the first quote; what stands before the quote is skipped. -/
theorem readRune_iff (l : GoStr) (v : Int) (rest : GoStr) :
    readRune l = .ok (v, rest) ↔ ∃ skip body, ∃ n : Nat, l = skip ++ 39 :: body ++ 39 :: rest ∧ 39 ∉ skip ∧ RuneText body n ∧ v = n := by
  constructor
  · intro h
    unfold readRune at h
    split at h
    · simp at h
    · next content rest' hs =>
      unfold scanRune at hs
      split at hs
      · simp at hs
      · next skip cs hf =>
        obtain ⟨e1, hn⟩ := splitFirst_eq hf
        have e2 := runeBody_eq hs
        split at h
        · simp at h
        · cases hp : parseRune content with
          | ok w =>
            simp only [hp, Out.bind, Out.ok.injEq, Prod.mk.injEq] at h
            obtain ⟨rfl, rfl⟩ := h
            unfold parseRune at hp
            split at hp
            · simp at hp
            · next n mb tail hu =>
              split at hp
              · simp at hp
              · next ht =>
                have ht : tail = [] := by
                  cases tail with
                  | nil => rfl
                  | cons _ _ => simp at ht
                subst ht
                simp only [Out.ok.injEq] at hp
                refine ⟨skip, content, n, by rw [e1, e2]; simp, hn, ?_, hp.symm⟩
                rcases unquoteChar_inv (.inr rfl) hu with ⟨t, byte, x1, x2, _⟩ | ⟨c, x1, x2, _, rfl, _⟩
                · rw [List.append_nil] at x1
                  rw [x1]; exact .char x2
                · rw [x1]; exact .bad x2
          | err e => simp [hp, Out.bind] at h
          | panic => simp [hp, Out.bind] at h
  · rintro ⟨skip, body, n, rfl, hn, hb, rfl⟩
    have hsf : splitFirst (skip ++ 39 :: body ++ 39 :: rest) = some (skip, body ++ 39 :: rest) := by
      rw [List.append_assoc]
      exact splitFirst_append skip _ fun c hc e => hn (e ▸ hc)
    unfold readRune scanRune
    simp only [hsf, hb.scan rest]
    have hp : parseRune body = .ok (n : Int) ∧ body ≠ [] := by
      cases hb with
      | char h =>
        obtain ⟨mb, hu, _⟩ := unquoteChar_text (.inr rfl) h []
        rw [List.append_nil] at hu
        obtain ⟨c, cs, rfl, _⟩ := h.head (.inr rfl)
        exact ⟨by simp [parseRune, hu], by simp⟩
      | @bad c hc =>
        have h := (RuneText.bad hc).scan []
        have hd : decodeRune? [c] = none := by
          have h80 : ¬ c.toNat < 0x80 := by omega
          simp only [decodeRune?, if_neg h80]
          repeat' split
          all_goals rfl
        have h39 : c ≠ 39 := by rintro rfl; revert hc; decide
        have h80 : (0x80 : UInt8) ≤ c := by rw [UInt8.le_iff_toNat_le]; simpa using hc
        refine ⟨?_, by simp⟩
        simp [parseRune, unquoteChar, h39, h80, hd]
    rw [if_neg (by have := List.length_pos_iff.2 hp.2; omega), hp.1]
    rfl

end Verif
