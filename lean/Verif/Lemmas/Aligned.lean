import Verif.Spec.Aligned
import Verif.Lemmas.FloatWidth
import Verif.Lemmas.Prints
import Verif.Lemmas.PrintPadded
import Verif.Lemmas.JsonIndent

/-!
# Lemmas: widths of columns
-/

namespace Verif
open Table FloatFmt

/-! ## Counting code points -/

theorem runeCount_le (k : Nat) (s : GoStr) : runeCount k s ≤ s.length := by
  induction s generalizing k with
  | nil => cases k <;> simp [runeCount]
  | cons c s ih =>
    cases k with
    | zero => have := ih (charWidth (c :: s) - 1); simp only [runeCount, List.length_cons]; omega
    | succ k => have := ih k; simp only [runeCount, List.length_cons]; omega

/-- What follows a text with a space in front does not change its code points. -/
theorem decodeRune?_space (c : UInt8) (x : GoStr) (y : GoStr) : decodeRune? (c :: (x ++ 32 :: y)) = decodeRune? (c :: x) := by
  have h32 : ¬ isCont 32 := by decide
  have hlo : ∀ a, ¬ (utf8Lo a ≤ (32 : UInt8).toNat) := by
    intro a
    unfold utf8Lo
    split
    · decide
    · split <;> decide
  match x with
  | [] => simp only [decodeRune?, List.nil_append, h32, if_false]; repeat' split
          all_goals first | rfl | grind | (rename_i heq hh; injection heq with e; subst e; exact absurd hh.1 (hlo _))
  | [a] => simp only [decodeRune?, List.cons_append, List.nil_append, h32]; repeat' split
           all_goals first | rfl | grind | (rename_i heq hh; injection heq with e; subst e; exact absurd hh.1 (hlo _))
  | [a, b] => simp [decodeRune?, h32]
  | a :: b :: d :: x => simp [decodeRune?]

theorem charWidth_le (c : UInt8) (x : GoStr) : charWidth (c :: x) - 1 ≤ x.length := by
  unfold charWidth
  cases h : decodeRune? (c :: x) with
  | none => simp
  | some p =>
    obtain ⟨r, w⟩ := p
    exact (decodeRune?_more h).2.1

theorem runeCount_space (k : Nat) (x y : GoStr) (hk : k ≤ x.length) : runeCount k (x ++ 32 :: y) = runeCount k x + (1 + runeCount 0 y) := by
  induction x generalizing k with
  | nil =>
    have : k = 0 := by simpa using hk
    subst this
    have e : charWidth (32 :: y) = 1 := by simp [charWidth, decodeRune?]
    simp [runeCount, e]
  | cons c x ih =>
    cases k with
    | zero =>
      have e : charWidth (c :: (x ++ 32 :: y)) = charWidth (c :: x) := by unfold charWidth; rw [decodeRune?_space]
      simp only [List.cons_append, runeCount, e]
      rw [ih _ (charWidth_le c x)]
      omega
    | succ k =>
      simp only [List.cons_append, runeCount]
      exact ih k (by simpa using hk)

theorem codePoints_space (x y : GoStr) : codePoints (x ++ 32 :: y) = codePoints x + 1 + codePoints y := by
  unfold codePoints
  rw [runeCount_space 0 x y (Nat.zero_le _)]
  omega

theorem codePoints_sp (n : Nat) : codePoints (sp n) = n := by
  induction n with
  | zero => rfl
  | succ n ih =>
    have := codePoints_space [] (sp n)
    rw [ih] at this
    have e : codePoints [] = 0 := rfl
    rw [e] at this
    rw [sp_succ]
    simp only [List.nil_append] at this
    omega

theorem codePoints_sp_append (n : Nat) (x : GoStr) : codePoints (sp n ++ x) = n + codePoints x := by
  induction n with
  | zero => simp [sp]
  | succ n ih =>
    have := codePoints_space [] (sp n ++ x)
    have e : codePoints [] = 0 := rfl
    rw [ih, e] at this
    rw [sp_succ, List.cons_append]
    simp only [List.nil_append] at this
    omega

theorem codePoints_append_sp (n : Nat) (x : GoStr) : codePoints (x ++ sp n) = codePoints x + n := by
  cases n with
  | zero => simp [sp]
  | succ n => rw [sp_succ, codePoints_space, codePoints_sp]; omega

/-! ## Lines -/

/-- The field of a column in a line. -/
def fieldAt (r : Nat) (col : PrintCol) : GoStr :=
  if col.numeric then padding col.width (textAt r col) ++ textAt r col else textAt r col ++ padding col.width (textAt r col)

theorem fieldAt_of (r : Nat) (col : PrintCol) (h : codePoints (textAt r col) ≤ col.width) : FieldOf col.numeric col.width (textAt r col) (fieldAt r col) := by
  have e : runeCount 0 (textAt r col) = codePoints (textAt r col) := rfl
  refine ⟨?_, col.width - runeCount 0 (textAt r col), ?_⟩
  · unfold fieldAt
    rw [padding_sp]
    split
    · rw [codePoints_sp_append]; omega
    · rw [codePoints_append_sp]; omega
  · unfold fieldAt
    rw [padding_sp]
    rfl

theorem getLast?_append_some {s t : GoStr} {c : UInt8} (h : t.getLast? = some c) : (s ++ t).getLast? = some c := by
  rw [List.getLast?_append, h]; rfl

theorem matrixLine_fields (r : Nat) (cols : List PrintCol) (hne : cols ≠ []) (h : ∀ col ∈ cols, ∃ tok, HoldsTok r col tok) :
    LineOf (cols.map (fieldAt r)) (matrixLine r cols) := by
  induction cols with
  | nil => exact absurd rfl hne
  | cons col cols ih =>
    cases cols with
    | nil =>
      obtain ⟨tok, m, c, hm, hc, h32, hnum⟩ := h col (by simp)
      simp only [matrixLine, List.map_cons, List.map_nil, joinSep]
      rw [show (col.texts[r]?).getD [] = textAt r col from rfl]
      unfold fieldAt LineOf
      split
      · rename_i hn
        have e : padding col.width (textAt r col) ++ textAt r col = (padding col.width (textAt r col) ++ tok) ++ sp m := by rw [List.append_assoc, ← hm]
        have hl : (padding col.width (textAt r col) ++ tok).getLast? = some c := getLast?_append_some hc
        rw [e, trimRightSpaces_sp m hl h32]
        exact ⟨⟨m, by simp [joinSep, sp]⟩, c, hl, h32⟩
      · next hn =>
        rw [hnum (by simpa using hn)] at hm
        have hm' : textAt r col = tok := by simpa [sp] using hm
        exact ⟨⟨_, by simp only [joinSep]; rfl⟩, c, by rw [hm']; exact hc, h32⟩
    | cons col' cols =>
      obtain ⟨⟨n, h1⟩, c, h2, h3⟩ := ih (by simp) fun x hx => h x (by simp [hx])
      refine ⟨⟨n, ?_⟩, c, ?_, h3⟩
      · simp only [matrixLine, List.map_cons, joinSep] at h1 ⊢
        rw [List.append_assoc, List.cons_append, h1]
        simp [fieldAt, textAt]
      · simp only [matrixLine]
        exact getLast?_append_some (by
          cases hml : matrixLine r (col' :: cols) with
          | nil => rw [hml] at h2; simp at h2
          | cons x xs => rw [hml] at h2; rw [List.getLast?_cons_cons]; exact h2)

/-! ## Cells -/

theorem digits_last {s : GoStr} (h : Digits s) : ∃ c, s.getLast? = some c ∧ c ≠ 32 := by
  cases hl : s.getLast? with
  | none => rw [List.getLast?_eq_none_iff] at hl; exact absurd hl h.1
  | some c =>
    refine ⟨c, rfl, ?_⟩
    rintro rfl
    exact absurd (h.2 _ (List.mem_of_getLast? hl)).1 (by decide)

theorem decimalAt_tok {p : Nat} {s : GoStr} (h : DecimalAt p s) : ∃ tok m c, s = tok ++ sp m ∧ tok.getLast? = some c ∧ c ≠ 32 := by
  obtain ⟨sign, whole, rest, rfl, _, hw, hr⟩ := h
  rcases hr with ⟨_, rfl⟩ | ⟨_, ds, n, rfl, hd, _⟩
  · obtain ⟨c, h1, h2⟩ := digits_last hw
    exact ⟨sign ++ whole, 0, c, by simp [sp], getLast?_append_some h1, h2⟩
  · obtain ⟨c, h1, h2⟩ := digits_last hd
    refine ⟨sign ++ whole ++ 46 :: ds, n, c, by simp [sp], getLast?_append_some ?_, h2⟩
    cases ds with
    | nil => exact absurd rfl hd.1
    | cons x xs => rw [List.getLast?_cons_cons]; exact h1

theorem isDigit_digits {s : GoStr} (hne : s ≠ []) (h : ∀ c ∈ s, isDigit c = true) : Digits s := by
  refine ⟨hne, fun c hc => ?_⟩
  have := h c hc
  simpa [isDigit] using this

theorem fmtInt_last (v : Int) : ∃ c, (fmtInt v).getLast? = some c ∧ c ≠ 32 := by
  have key := digits_last (isDigit_digits (fmtNat_digits v.natAbs).2.2 (fmtNat_digits v.natAbs).2.1)
  obtain ⟨c, h1, h2⟩ := key
  refine ⟨c, ?_, h2⟩
  unfold fmtInt
  split
  · cases hx : fmtNat v.natAbs with
    | nil => rw [hx] at h1; simp at h1
    | cons x xs => rw [hx] at h1; rw [List.getLast?_cons_cons]; exact h1
  · exact h1

/-- The text of a cell that is no number ends with a byte other than a space. -/
theorem cellText_last (P : PrintEnv) (hG : P.IsGo) (H : Heap) {ty : ColType} {c : Cell Addr} {s : GoStr} (hn : ty.numeric = false) (h : cellText P H ty c = .ok s) :
    ∃ x, s.getLast? = some x ∧ x ≠ 32 := by
  cases ty <;> first | exact absurd hn (by decide) | skip
  all_goals cases c
  all_goals first
    | exact absurd (show Out.panic = Out.ok s from h) (by simp)
    | (rename_i b; cases b <;> exact absurd (show Out.panic = Out.ok s from h) (by simp))
    | skip
  · obtain rfl : _ = s := Out.ok.inj (show Out.ok _ = Out.ok s from h)
    exact ⟨93, getLast?_append_some rfl, by decide⟩
  · obtain rfl : _ = s := Out.ok.inj (show Out.ok _ = Out.ok s from h)
    exact ⟨93, getLast?_append_some rfl, by decide⟩
  · rename_i b
    obtain rfl : _ = s := Out.ok.inj (show Out.ok _ = Out.ok s from h)
    cases b
    · exact ⟨101, rfl, by decide⟩
    · exact ⟨101, rfl, by decide⟩
  · rename_i k v
    cases k <;> first
      | exact absurd (show Out.panic = Out.ok s from h) (by simp)
      | (obtain rfl : _ = s := Out.ok.inj (show Out.ok _ = Out.ok s from h)
         exact ⟨39, getLast?_append_some rfl, by decide⟩)
  · obtain rfl : _ = s := Out.ok.inj (show Out.ok _ = Out.ok s from h)
    exact ⟨34, getLast?_append_some rfl, by decide⟩
  · rename_i a
    cases a
    · obtain rfl : _ = s := Out.ok.inj (show Out.ok _ = Out.ok s from h)
      exact ⟨93, rfl, by decide⟩
    · obtain rfl : _ = s := Out.ok.inj (show Out.ok _ = Out.ok s from h)
      exact ⟨93, getLast?_append_some rfl, by decide⟩
  · obtain rfl : _ = s := Out.ok.inj (show Out.ok _ = Out.ok s from h)
    rw [hG.fmtTime]
    obtain ⟨x, h1, h2⟩ := (fmtTime_good _).2.1
    exact ⟨x, h1, endByte_ne h2⟩

theorem inf64_bound : f64.units f64.inf ≤ 2 ^ f64.scale * 10 ^ f64.maxDigits := by decide +kernel
theorem inf32_bound : f32.units f32.inf ≤ 2 ^ f32.scale * 10 ^ f32.maxDigits := by decide +kernel

/-- What `float_field` says, in terms of the specification. -/
theorem decimalAt_field (f : FloatFmt) (hscale : 0 < f.scale) (hmax : f.units f.inf ≤ 2 ^ f.scale * 10 ^ f.maxDigits) (neg : Bool) (b p : Nat) (hb : b < f.inf)
    (hp : (decimalParts (f.format f.formatShortest neg b)).2.2 ≤ p) :
    DecimalAt p (padTrailingZeros (f.format (fun b => f.formatPrec b p) neg b)) ∧
      (padTrailingZeros (f.format (fun b => f.formatPrec b p) neg b)).length ≤ (decimalParts (f.format f.formatShortest neg b)).1 + if p = 0 then 0 else 1 + p := by
  obtain ⟨whole, rest, h1, h2, h3, h4, h5⟩ := float_field f hscale hmax neg b p hb hp
  rw [h1]
  refine ⟨⟨_, whole, rest, rfl, by cases neg <;> simp, isDigit_digits h2 h3, ?_⟩, ?_⟩
  · rcases h4 with h4 | ⟨h4, ds, n, e1, e2, e3, e4⟩
    · exact .inl h4
    · exact .inr ⟨h4, ds, n, e1, isDigit_digits e2 e3, e4⟩
  · rw [List.length_append]
    rcases h4 with ⟨h4, rfl⟩ | ⟨h4, ds, n, rfl, e2, e3, e4⟩
    · rw [if_pos h4]; simpa using h5
    · rw [if_neg h4]
      simp only [List.length_append, List.length_cons, List.length_replicate] at h5 ⊢
      omega

theorem format_inf (f : FloatFmt) (g : Nat → GoStr) (neg : Bool) : f.format g neg f.inf = if neg then gs! "-Inf" else gs! "+Inf" := by
  unfold format
  rw [if_neg (by omega), if_pos rfl]

theorem format_nan (f : FloatFmt) (g : Nat → GoStr) (neg : Bool) (b : Nat) (h : f.inf < b) : f.format g neg b = gs! "NaN" := if_pos h

theorem nonfinite64 {b : BitVec 64} (h : ¬ finite64 b) (prec : Nat) :
    (goFloat.parse64 (goFloat.fmt64 b)).map (fun x => padTrailingZeros (goFloat.prec64 x prec)) = some (goFloat.fmt64 b) ∧
      (goFloat.fmt64 b = gs! "NaN" ∨ goFloat.fmt64 b = gs! "-Inf" ∨ goFloat.fmt64 b = gs! "+Inf") := by
  have e : goFloat.fmt64 b = f64.format f64.formatShortest (decide (2 ^ 63 ≤ b.toNat)) (b.toNat % 2 ^ 63) := rfl
  have hinf : f64.inf = 2047 * 2 ^ 52 := rfl
  unfold finite64 at h
  unfold format at e
  by_cases h1 : f64.inf < b.toNat % 2 ^ 63
  · rw [if_pos h1] at e
    rw [e]
    have hp : goFloat.parse64 (gs! "NaN") = some 0x7FF8000000000000#64 := by decide +kernel
    rw [hp]
    refine ⟨?_, .inl rfl⟩
    have : goFloat.prec64 0x7FF8000000000000#64 prec = gs! "NaN" := by
      exact format_nan f64 (fun m => f64.formatPrec m prec) false ((0x7FF8000000000000#64).toNat % 2 ^ 63) (by decide)
    rw [Option.map_some, this, padded_nan]
  · rw [if_neg h1, if_pos (by omega)] at e
    rw [e]
    split
    · have hp : goFloat.parse64 (gs! "-Inf") = some 0xFFF0000000000000#64 := by decide +kernel
      rw [hp]
      refine ⟨?_, .inr (.inl rfl)⟩
      have : goFloat.prec64 0xFFF0000000000000#64 prec = gs! "-Inf" := by
        show f64.format (fun m => f64.formatPrec m prec) (decide (2 ^ 63 ≤ (0xFFF0000000000000#64).toNat)) ((0xFFF0000000000000#64).toNat % 2 ^ 63) = _
        have h1 : decide (2 ^ 63 ≤ (0xFFF0000000000000#64).toNat) = true := by decide
        have h2 : (0xFFF0000000000000#64).toNat % 2 ^ 63 = f64.inf := by decide
        rw [h1, h2, format_inf]
        rfl
      rw [Option.map_some, this]
      congr 1
    · have hp : goFloat.parse64 (gs! "+Inf") = some 0x7FF0000000000000#64 := by decide +kernel
      rw [hp]
      refine ⟨?_, .inr (.inr rfl)⟩
      have : goFloat.prec64 0x7FF0000000000000#64 prec = gs! "+Inf" := by
        show f64.format (fun m => f64.formatPrec m prec) (decide (2 ^ 63 ≤ (0x7FF0000000000000#64).toNat)) ((0x7FF0000000000000#64).toNat % 2 ^ 63) = _
        have h1 : decide (2 ^ 63 ≤ (0x7FF0000000000000#64).toNat) = false := by decide
        have h2 : (0x7FF0000000000000#64).toNat % 2 ^ 63 = f64.inf := by decide
        rw [h1, h2, format_inf]
        rfl
      rw [Option.map_some, this]
      congr 1

theorem nonfinite32 {b : BitVec 32} (h : ¬ finite32 b) (prec : Nat) :
    (goFloat.parse32 (goFloat.fmt32 b)).map (fun x => padTrailingZeros (goFloat.prec32 x prec)) = some (goFloat.fmt32 b) ∧
      (goFloat.fmt32 b = gs! "NaN" ∨ goFloat.fmt32 b = gs! "-Inf" ∨ goFloat.fmt32 b = gs! "+Inf") := by
  have e : goFloat.fmt32 b = f32.format f32.formatShortest (decide (2 ^ 31 ≤ b.toNat)) (b.toNat % 2 ^ 31) := rfl
  have hinf : f32.inf = 255 * 2 ^ 23 := rfl
  unfold finite32 at h
  unfold format at e
  by_cases h1 : f32.inf < b.toNat % 2 ^ 31
  · rw [if_pos h1] at e
    rw [e]
    have hp : goFloat.parse32 (gs! "NaN") = some 0x7FC00000#32 := by decide +kernel
    rw [hp]
    refine ⟨?_, .inl rfl⟩
    have : goFloat.prec32 0x7FC00000#32 prec = gs! "NaN" := by
      exact format_nan f32 (fun m => f32.formatPrec m prec) false ((0x7FC00000#32).toNat % 2 ^ 31) (by decide)
    rw [Option.map_some, this, padded_nan]
  · rw [if_neg h1, if_pos (by omega)] at e
    rw [e]
    split
    · have hp : goFloat.parse32 (gs! "-Inf") = some 0xFF800000#32 := by decide +kernel
      rw [hp]
      refine ⟨?_, .inr (.inl rfl)⟩
      have : goFloat.prec32 0xFF800000#32 prec = gs! "-Inf" := by
        show f32.format (fun m => f32.formatPrec m prec) (decide (2 ^ 31 ≤ (0xFF800000#32).toNat)) ((0xFF800000#32).toNat % 2 ^ 31) = _
        have h1 : decide (2 ^ 31 ≤ (0xFF800000#32).toNat) = true := by decide
        have h2 : (0xFF800000#32).toNat % 2 ^ 31 = f32.inf := by decide
        rw [h1, h2, format_inf]
        rfl
      rw [Option.map_some, this]
      congr 1
    · have hp : goFloat.parse32 (gs! "+Inf") = some 0x7F800000#32 := by decide +kernel
      rw [hp]
      refine ⟨?_, .inr (.inr rfl)⟩
      have : goFloat.prec32 0x7F800000#32 prec = gs! "+Inf" := by
        show f32.format (fun m => f32.formatPrec m prec) (decide (2 ^ 31 ≤ (0x7F800000#32).toNat)) ((0x7F800000#32).toNat % 2 ^ 31) = _
        have h1 : decide (2 ^ 31 ≤ (0x7F800000#32).toNat) = false := by decide
        have h2 : (0x7F800000#32).toNat % 2 ^ 31 = f32.inf := by decide
        rw [h1, h2, format_inf]
        rfl
      rw [Option.map_some, this]
      congr 1

/-- How long the text of a cell may become. -/
def Fits (s : GoStr) (prec : Nat) (w : GoStr) : Prop := w.length ≤ s.length ∨ w.length ≤ (decimalParts s).1 + if prec = 0 then 0 else 1 + prec

/-- The text that is written for a cell. -/
theorem cell_shown (P : PrintEnv) (hG : P.IsGo) (H : Heap) {ty : ColType} {c : Cell Addr} (prec : Nat) (hc : c.HasType ty) (hint : ∀ k v, c = .int k v → v.natAbs ≤ 2 ^ 53)
    (hp : (decimalParts (textOf P H ty c)).2.2 ≤ prec) :
    CellOK P H ty prec c ∧ ShownAs P H ty prec c (writtenOf P H ty prec c) ∧
      (∃ tok m x, writtenOf P H ty prec c = tok ++ sp m ∧ tok.getLast? = some x ∧ x ≠ 32 ∧ (ty.numeric = false → m = 0)) ∧
      (((ty = .float32 ∨ ty = .float64) ∧ Fits (textOf P H ty c) prec (writtenOf P H ty prec c)) ∨ (writtenOf P H ty prec c).length ≤ (textOf P H ty c).length) := by
  obtain ⟨s, hs⟩ := cellText_ok P H hc
  have hP := hG.float
  by_cases h32 : ty = .float32
  · subst h32
    cases c with
    | f32 b =>
      have ht : textOf P H .float32 (.f32 b) = goFloat.fmt32 b := by rw [← hP]; rfl
      have hn : numericText P .float32 (.f32 b) prec = (goFloat.parse32 (goFloat.fmt32 b)).map fun x => padTrailingZeros (goFloat.prec32 x prec) := by rw [← hP]; rfl
      have hs' : cellText P H .float32 (.f32 b) = .ok (goFloat.fmt32 b) := by rw [← hP]; rfl
      have hw : writtenOf P H .float32 prec (.f32 b) = (numericText P .float32 (.f32 b) prec).getD [] := rfl
      rw [ht] at hp ⊢
      rw [hw]
      by_cases hf : finite32 b
      · have hb := (floatOK_go).back32 b hf
        rw [hb, Option.map_some] at hn
        obtain ⟨d1, d2⟩ := decimalAt_field f32 (by decide) inf32_bound (decide (2 ^ 31 ≤ b.toNat)) (b.toNat % 2 ^ 31) prec hf hp
        rw [hn, Option.getD_some]
        obtain ⟨tok, m, x, t1, t2, t3⟩ := decimalAt_tok d1
        exact ⟨⟨⟨s, hs⟩, fun _ => by rw [hn]; rfl⟩, ⟨fun _ => d1, fun hno => absurd (.inl ⟨b, rfl, hf⟩) hno⟩, ⟨tok, m, x, t1, t2, t3, fun h => nomatch h⟩, .inl ⟨.inl rfl, .inr d2⟩⟩
      · obtain ⟨e1, e2⟩ := nonfinite32 hf prec
        rw [hn, e1, Option.getD_some]
        refine ⟨⟨⟨s, hs⟩, fun _ => by rw [hn, e1]; rfl⟩, ⟨?_, fun _ => hs'⟩, ?_, .inr (Nat.le_refl _)⟩
        · rintro (⟨b', hb', hf'⟩ | ⟨b', hb', _⟩)
          · cases hb'; exact absurd hf' hf
          · cases hb'
        · rcases e2 with e2 | e2 | e2 <;> rw [e2]
          · exact ⟨gs! "NaN", 0, 78, by decide, by decide, by decide, fun _ => rfl⟩
          · exact ⟨gs! "-Inf", 0, 102, by decide, by decide, by decide, fun _ => rfl⟩
          · exact ⟨gs! "+Inf", 0, 102, by decide, by decide, by decide, fun _ => rfl⟩
    | _ => exact absurd hc (by simp [Cell.HasType])
  by_cases h64 : ty = .float64
  · subst h64
    cases c with
    | f64 b =>
      have ht : textOf P H .float64 (.f64 b) = goFloat.fmt64 b := by rw [← hP]; rfl
      have hn : numericText P .float64 (.f64 b) prec = (goFloat.parse64 (goFloat.fmt64 b)).map fun x => padTrailingZeros (goFloat.prec64 x prec) := by rw [← hP]; rfl
      have hs' : cellText P H .float64 (.f64 b) = .ok (goFloat.fmt64 b) := by rw [← hP]; rfl
      have hw : writtenOf P H .float64 prec (.f64 b) = (numericText P .float64 (.f64 b) prec).getD [] := rfl
      rw [ht] at hp ⊢
      rw [hw]
      by_cases hf : finite64 b
      · have hb := (floatOK_go).back64 b hf
        rw [hb, Option.map_some] at hn
        obtain ⟨d1, d2⟩ := decimalAt_field f64 (by decide) inf64_bound (decide (2 ^ 63 ≤ b.toNat)) (b.toNat % 2 ^ 63) prec hf hp
        rw [hn, Option.getD_some]
        obtain ⟨tok, m, x, t1, t2, t3⟩ := decimalAt_tok d1
        exact ⟨⟨⟨s, hs⟩, fun _ => by rw [hn]; rfl⟩, ⟨fun _ => d1, fun hno => absurd (.inr ⟨b, rfl, hf⟩) hno⟩, ⟨tok, m, x, t1, t2, t3, fun h => nomatch h⟩, .inl ⟨.inr rfl, .inr d2⟩⟩
      · obtain ⟨e1, e2⟩ := nonfinite64 hf prec
        rw [hn, e1, Option.getD_some]
        refine ⟨⟨⟨s, hs⟩, fun _ => by rw [hn, e1]; rfl⟩, ⟨?_, fun _ => hs'⟩, ?_, .inr (Nat.le_refl _)⟩
        · rintro (⟨b', hb', _⟩ | ⟨b', hb', hf'⟩)
          · cases hb'
          · cases hb'; exact absurd hf' hf
        · rcases e2 with e2 | e2 | e2 <;> rw [e2]
          · exact ⟨gs! "NaN", 0, 78, by decide, by decide, by decide, fun _ => rfl⟩
          · exact ⟨gs! "-Inf", 0, 102, by decide, by decide, by decide, fun _ => rfl⟩
          · exact ⟨gs! "+Inf", 0, 102, by decide, by decide, by decide, fun _ => rfl⟩
    | _ => exact absurd hc (by simp [Cell.HasType])
  have hnf : ¬ ((∃ b, c = .f32 b ∧ finite32 b) ∨ (∃ b, c = .f64 b ∧ finite64 b)) := by
    rintro (⟨b, rfl, _⟩ | ⟨b, rfl, _⟩)
    · cases ty <;> first | exact h32 rfl | exact (hc : False)
    · cases ty <;> first | exact h64 rfl | exact (hc : False)
  cases hnum : ty.numeric with
  | false =>
    have hw : writtenOf P H ty prec c = s := by simp [writtenOf, hnum, textOf_eq hs]
    rw [hw, textOf_eq hs]
    obtain ⟨x, x1, x2⟩ := cellText_last P hG H hnum hs
    exact ⟨⟨⟨s, hs⟩, by simp [hnum]⟩, ⟨fun h => absurd h hnf, fun _ => hs⟩, ⟨s, 0, x, by simp [sp], x1, x2, fun _ => rfl⟩, .inr (Nat.le_refl _)⟩
  | true =>
    have hk : ty.intKind?.isSome = true := by
      cases ty <;> first | rfl | exact absurd hnum (by decide) | exact absurd rfl h32 | exact absurd rfl h64
    obtain ⟨k, v, rfl, rfl⟩ := cellText_int hk hs
    have hn : numericText P ty (.int k v) prec = some (fmtInt v) := by rw [numericText_int, nearestDoubleInt_small (hint k v rfl)]
    have hw : writtenOf P H ty prec (.int k v) = fmtInt v := by simp [writtenOf, hnum, hn]
    rw [hw, textOf_eq hs]
    obtain ⟨x, x1, x2⟩ := fmtInt_last v
    exact ⟨⟨⟨_, hs⟩, fun _ => by rw [hn]; rfl⟩, ⟨fun h => absurd h hnf, fun _ => hs⟩, ⟨fmtInt v, 0, x, by simp [sp], x1, x2, fun _ => rfl⟩, .inr (Nat.le_refl _)⟩

/-! ## Columns -/

theorem le_maxOf {l : List Nat} {x : Nat} (h : x ∈ l) : x ≤ maxOf l := foldl_max_le l 0 x (.inr h)

theorem foldl_max_mem (l : List Nat) (a : Nat) : l.foldl max a = a ∨ l.foldl max a ∈ l := by
  induction l generalizing a with
  | nil => exact .inl rfl
  | cons x l ih =>
    rw [List.foldl_cons]
    rcases ih (max a x) with h | h
    · rw [h]
      rcases Nat.le_total a x with hx | hx
      · right; rw [Nat.max_eq_right hx]; simp
      · left; exact Nat.max_eq_left hx
    · exact .inr (List.mem_cons_of_mem _ h)

theorem decimalParts_points (s : GoStr) (h : (decimalParts s).2.2 ≠ 0) : (decimalParts s).2.1 = 1 := by
  unfold decimalParts at h ⊢
  split at h
  · rfl
  · exact absurd rfl h

/-- The width of a column is enough for everything in it. -/
theorem colWidth_ge (name : GoStr) (ty : ColType) (texts : List GoStr) :
    name.length ≤ colWidth name ty texts ∧ ty.name.length ≤ colWidth name ty texts ∧ (∀ s ∈ texts, s.length ≤ colWidth name ty texts) ∧
      ((ty = .float32 ∨ ty = .float64) → ∀ s ∈ texts, (decimalParts s).1 + (if colPrecision texts = 0 then 0 else 1 + colPrecision texts) ≤ colWidth name ty texts) := by
  unfold colWidth
  simp only
  generalize hparts : (if ty = .float32 ∨ ty = .float64 ∨ ty = .rune then
      maxOf (texts.map fun s => (decimalParts s).1) + maxOf (texts.map fun s => (decimalParts s).2.1) + colPrecision texts else 0) = parts
  refine ⟨by omega, by omega, ?_, ?_⟩
  · intro s hs
    have := le_maxOf (List.mem_map_of_mem (f := List.length) hs)
    omega
  · intro hf s hs
    rw [if_pos (by rcases hf with h | h <;> simp [h])] at hparts
    have h1 := le_maxOf (List.mem_map_of_mem (f := fun s => (decimalParts s).1) hs)
    split
    · omega
    · rename_i hne
      have h2 : 1 ≤ maxOf (texts.map fun s => (decimalParts s).2.1) := by
        rcases foldl_max_mem (texts.map fun s => (decimalParts s).2.2) 0 with h | h
        · exact absurd h hne
        · obtain ⟨s', hs', e⟩ := List.mem_map.1 h
          have hp := decimalParts_points s' (by rw [e]; exact hne)
          have := le_maxOf (List.mem_map_of_mem (f := fun s => (decimalParts s).2.1) hs')
          omega
      omega

/-- Column `i` of the matrix. -/
def padCol (P : PrintEnv) (H : Heap) (rows : List (List (Cell Addr))) (i : Nat) (n : GoStr) (ty : ColType) : PrintCol where
  numeric := ty.numeric
  width := colWidth n ty (colTextsOf P H ty i rows)
  texts := n :: ty.name :: rows.map fun row => writtenOf P H ty (precOf P H ty i rows) ((row[i]?).getD .nil)

theorem padCols_get (P : PrintEnv) (H : Heap) (rows : List (List (Cell Addr))) (names : List GoStr) (types : List ColType) (c : Nat) (hlen : types.length = names.length) :
    (padCols P H rows c names types).length = names.length ∧
    ∀ i n ty, names[i]? = some n → types[i]? = some ty →
      (padCols P H rows c names types)[i]? = some (padCol P H rows (c + i) n ty) := by
  induction names generalizing types c with
  | nil =>
    match types, hlen with
    | [], _ => exact ⟨rfl, fun i n ty h => by simp at h⟩
  | cons n names ih =>
    match types, hlen with
    | ty :: types, hlen =>
      obtain ⟨i1, i2⟩ := ih types (c + 1) (by simpa using hlen)
      refine ⟨by simp [padCols, i1], fun i n' ty' h1 h2 => ?_⟩
      cases i with
      | zero =>
        simp only [List.getElem?_cons_zero, Option.some.injEq] at h1 h2
        subst h1; subst h2
        simp [padCols, padCol]
      | succ i =>
        have := i2 i n' ty' (by simpa using h1) (by simpa using h2)
        simp only [padCols, List.getElem?_cons_succ]
        rw [this, show c + 1 + i = c + (i + 1) by omega]

/-- The padded text of a table, by columns. -/
theorem stringPadded_aligned (P : PrintEnv) (hG : P.IsGo) (H : Heap) {t : Table Addr} (hw : WF t) (hcols : t.colNames ≠ [])
    (hint : ∀ row ∈ t.rows, ∀ k v, Cell.int k v ∈ row → v.natAbs ≤ 2 ^ 53) (hshape : ¬ (t.isStructShape = true ∧ t.rows.length ≤ 1)) :
    ∃ s, stringPadded P H t = .ok s ∧ AlignedText P H t s := by
  have hcell : ∀ (i : Nat) ty row cell, t.colTypes[i]? = some ty → row ∈ t.rows → row[i]? = some cell →
      CellOK P H ty (precOf P H ty i t.rows) cell ∧ ShownAs P H ty (precOf P H ty i t.rows) cell (writtenOf P H ty (precOf P H ty i t.rows) cell) ∧
      (∃ tok m x, writtenOf P H ty (precOf P H ty i t.rows) cell = tok ++ sp m ∧ tok.getLast? = some x ∧ x ≠ 32 ∧ (ty.numeric = false → m = 0)) ∧
      ∀ n, (writtenOf P H ty (precOf P H ty i t.rows) cell).length ≤ colWidth n ty (colTextsOf P H ty i t.rows) := by
    intro i ty row cell hi hr hc
    have hrow := hw.rowsOK row hr
    obtain ⟨h1, h2, h3, h4⟩ := cell_shown P hG H (precOf P H ty i t.rows) (hrow.2 i ty _ hi hc)
      (fun k v e => hint row hr k v (by rw [← e]; exact List.mem_of_getElem? hc)) (le_precOf hr hc)
    refine ⟨h1, h2, h3, fun n => ?_⟩
    obtain ⟨_, _, w3, w4⟩ := colWidth_ge n ty (colTextsOf P H ty i t.rows)
    have hmem : textOf P H ty cell ∈ colTextsOf P H ty i t.rows := by
      unfold colTextsOf
      rw [List.mem_map]
      exact ⟨row, hr, by rw [hc]; rfl⟩
    rcases h4 with ⟨hf, h4 | h4⟩ | h4
    · exact Nat.le_trans h4 (w3 _ hmem)
    · exact Nat.le_trans h4 (w4 hf _ hmem)
    · exact Nat.le_trans h4 (w3 _ hmem)
  have hget : ∀ (i : Nat) ty row, t.colTypes[i]? = some ty → row ∈ t.rows → ∃ cell, row[i]? = some cell := by
    intro i ty row hi hr
    have hrow := hw.rowsOK row hr
    have hlt : i < row.length := by rw [hrow.1]; exact (List.getElem?_eq_some_iff.1 hi).1
    exact ⟨row[i], List.getElem?_eq_getElem hlt⟩
  have hcol : ∀ i ty, t.colTypes[i]? = some ty → ColOK P H ty (0 + i) t.rows := by
    intro i ty hi row hr
    rw [Nat.zero_add]
    obtain ⟨cell, hc⟩ := hget i ty row hi hr
    exact ⟨cell, hc, (hcell i ty row _ hi hr hc).1⟩
  have hpc := printCols_eq P H t.rows t.colNames t.colTypes 0 hcol
  obtain ⟨plen, pget⟩ := padCols_get P H t.rows t.colNames t.colTypes 0 hw.typesLen
  simp only [Nat.zero_add] at pget
  generalize padCols P H t.rows 0 t.colNames t.colTypes = cols at *
  have hne : cols ≠ [] := by
    rintro rfl
    exact hcols (List.eq_nil_of_length_eq_zero plen.symm)
  -- every column in every line
  have hline : ∀ r, r < t.rows.length + 2 → ∀ i n ty, t.colNames[i]? = some n → t.colTypes[i]? = some ty → ∃ col, cols[i]? = some col ∧ col.numeric = ty.numeric ∧
      col.width = colWidth n ty (colTextsOf P H ty i t.rows) ∧ (∃ tok, HoldsTok r col tok) ∧ codePoints (textAt r col) ≤ col.width ∧
      TextAtLine P H t (precOf P H ty i t.rows) i ty (textAt r col) r := by
    intro r hr i n ty hn hty
    obtain ⟨w1, w2, _, _⟩ := colWidth_ge n ty (colTextsOf P H ty i t.rows)
    refine ⟨_, pget i n ty hn hty, rfl, rfl, ?_⟩
    match r, hr with
    | 0, _ =>
      refine ⟨⟨n, ?_⟩, Nat.le_trans (runeCount_le 0 n) w1, hn⟩
      have hb := isValidName_bytes (isValidColName_name (hw.namesValid _ (List.mem_of_getElem? hn))).1
      cases hl : n.getLast? with
      | none => rw [List.getLast?_eq_none_iff] at hl; exact absurd hl hb.1
      | some c => exact ⟨0, c, by simp [sp, textAt, padCol], hl, endByte_ne (nameByte_facts c (hb.2 c (List.mem_of_getLast? hl))).1, fun _ => rfl⟩
    | 1, _ =>
      refine ⟨⟨ty.name, ?_⟩, Nat.le_trans (runeCount_le 0 ty.name) w2, rfl⟩
      have hb := typeName_good ty
      cases hl : ty.name.getLast? with
      | none => rw [List.getLast?_eq_none_iff] at hl; exact absurd hl hb.1
      | some c => exact ⟨0, c, by simp [sp, textAt, padCol], hl, endByte_ne (visible_facts c (hb.2.1 c (List.mem_of_getLast? hl)).1).2.2.1, fun _ => rfl⟩
    | r + 2, hr =>
      have hlt : r < t.rows.length := by omega
      have hrow : t.rows[r]? = some t.rows[r] := List.getElem?_eq_getElem hlt
      obtain ⟨cell, hc⟩ := hget i ty _ hty (List.getElem_mem hlt)
      obtain ⟨_, c2, ⟨tok, m, x, c3, c4, c5, c6⟩, c7⟩ := hcell i ty _ cell hty (List.getElem_mem hlt) hc
      have ht : textAt (r + 2) (padCol P H t.rows i n ty) = writtenOf P H ty (precOf P H ty i t.rows) cell := by
        simp [textAt, padCol, hrow, hc]
      rw [ht]
      exact ⟨⟨tok, m, x, ht.trans c3, c4, c5, c6⟩, Nat.le_trans (runeCount_le 0 _) (c7 n), t.rows[r], cell, hrow, hc, c2⟩
  refine ⟨91 :: t.name ++ gs! "]\n" ++ ((List.range (t.rows.length + 2)).map fun r => matrixLine r cols ++ [10]).flatten, ?_, ?_⟩
  · rw [stringPadded, hpc]
    simp only [Out.bind]
    rw [if_neg hshape, if_neg hcols]
  · refine ⟨fun i => colWidth ((t.colNames[i]?).getD []) ((t.colTypes[i]?).getD .int) (colTextsOf P H ((t.colTypes[i]?).getD .int) i t.rows),
      fun i => precOf P H ((t.colTypes[i]?).getD .int) i t.rows, (List.range (t.rows.length + 2)).map fun r => matrixLine r cols, ?_, by simp, ?_⟩
    · rw [List.map_map]; rfl
    · intro r line hl
      rw [List.getElem?_map] at hl
      obtain ⟨r', hr', rfl⟩ := Option.map_eq_some_iff.1 hl
      obtain ⟨hlt, e⟩ := List.getElem?_eq_some_iff.1 hr'
      rw [List.getElem_range] at e
      subst e
      rw [List.length_range] at hlt
      have hname : ∀ i, i < t.colNames.length → ∃ n ty, t.colNames[i]? = some n ∧ t.colTypes[i]? = some ty := fun i hi =>
        ⟨_, _, List.getElem?_eq_getElem hi, List.getElem?_eq_getElem (by rw [hw.typesLen]; exact hi)⟩
      refine ⟨cols.map (fieldAt r), matrixLine_fields r cols hne ?_, by rw [List.length_map, plen], ?_⟩
      · intro col hcol
        obtain ⟨i, hi, e⟩ := List.mem_iff_getElem.1 hcol
        obtain ⟨n, ty, h1, h2⟩ := hname i (by rw [← plen]; exact hi)
        obtain ⟨col', g1, _, _, g4, _⟩ := hline r hlt i n ty h1 h2
        rw [List.getElem?_eq_getElem hi, e] at g1
        cases g1
        exact g4
      · intro i ty hty
        obtain ⟨n, ty', h1, h2⟩ := hname i (by rw [← hw.typesLen]; exact (List.getElem?_eq_some_iff.1 hty).1)
        rw [hty] at h2
        cases h2
        obtain ⟨col, g1, g2, g3, g4, g5, g6⟩ := hline r hlt i n ty h1 hty
        refine ⟨textAt r col, fieldAt r col, by rw [List.getElem?_map, g1]; rfl, ?_, ?_⟩
        · have := fieldAt_of r col g5
          rw [g2, g3] at this
          simp only [h1, hty, Option.getD_some]
          exact this
        · simp only [hty, Option.getD_some]
          exact g6

end Verif
