import Verif.Lemmas.TimeScan
import Verif.Lemmas.PrintTable
import Verif.Lemmas.GoFloat
import Verif.Lemmas.FloatPad

/-!
# Lemmas: padded tables consist of lines that are parsed back
-/

namespace Verif
open Table

/-- The text of a cell. -/
def textOf (P : PrintEnv) (H : Heap) (ty : ColType) (c : Cell Addr) : GoStr :=
  match cellText P H ty c with
  | .ok s => s
  | _ => []

theorem textOf_eq {P : PrintEnv} {H : Heap} {ty : ColType} {c : Cell Addr} {s : GoStr} (h : cellText P H ty c = .ok s) : textOf P H ty c = s := by
  simp [textOf, h]

theorem nearestDoubleInt_small {v : Int} (h : v.natAbs ≤ 2 ^ 53) : nearestDoubleInt v = v := by
  have key : nearestDouble v.natAbs = v.natAbs := by
    unfold nearestDouble
    split
    · rfl
    · have : v.natAbs = 2 ^ 53 := by omega
      rw [this]
      decide
  unfold nearestDoubleInt
  rw [key]
  split <;> omega

theorem numericText_int (P : PrintEnv) (ty : ColType) (k : IntKind) (v : Int) (prec : Nat) :
    numericText P ty (.int k v) prec = some (fmtInt (nearestDoubleInt v)) := by
  cases ty <;> rfl

/-- The text that is written for a cell in a column with precision `prec`. -/
def writtenOf (P : PrintEnv) (H : Heap) (ty : ColType) (prec : Nat) (c : Cell Addr) : GoStr :=
  if ty.numeric then (numericText P ty c prec).getD [] else textOf P H ty c

/-- A cell that is written in a column with precision `prec`. -/
def CellOK (P : PrintEnv) (H : Heap) (ty : ColType) (prec : Nat) (c : Cell Addr) : Prop :=
  (∃ s, cellText P H ty c = .ok s) ∧ (ty.numeric = true → (numericText P ty c prec).isSome = true)

/-- The texts of a column. -/
def colTextsOf (P : PrintEnv) (H : Heap) (ty : ColType) (c : Nat) (rows : List (List (Cell Addr))) : List GoStr :=
  rows.map fun row => textOf P H ty ((row[c]?).getD .nil)

/-- The precision of a column. -/
def precOf (P : PrintEnv) (H : Heap) (ty : ColType) (c : Nat) (rows : List (List (Cell Addr))) : Nat := colPrecision (colTextsOf P H ty c rows)

/-- Every row has in column `c` a cell that is written. -/
def ColOK (P : PrintEnv) (H : Heap) (ty : ColType) (c : Nat) (rows : List (List (Cell Addr))) : Prop :=
  ∀ row ∈ rows, ∃ cell, row[c]? = some cell ∧ CellOK P H ty (precOf P H ty c rows) cell

theorem colTexts_eq (P : PrintEnv) (H : Heap) (ty : ColType) (c : Nat) (rows : List (List (Cell Addr)))
    (h : ∀ row ∈ rows, ∃ cell s, row[c]? = some cell ∧ cellText P H ty cell = .ok s) :
    colTexts P H ty c rows = .ok (colTextsOf P H ty c rows) := by
  induction rows with
  | nil => rfl
  | cons row rows ih =>
    obtain ⟨cell, s, hc, hs⟩ := h row (by simp)
    have := ih fun r hr => h r (by simp [hr])
    simp [colTexts, colTextsOf, hc, hs, this, Out.bind, textOf_eq hs]

theorem colWritten_eq (P : PrintEnv) (H : Heap) (ty : ColType) (c prec : Nat) (rows : List (List (Cell Addr)))
    (h : ∀ row ∈ rows, ∃ cell, row[c]? = some cell ∧ CellOK P H ty prec cell) :
    colWritten P ty c prec rows (colTextsOf P H ty c rows) = some (rows.map fun row => writtenOf P H ty prec ((row[c]?).getD .nil)) := by
  induction rows with
  | nil => rfl
  | cons row rows ih =>
    obtain ⟨cell, hc, ⟨s, hs⟩, hn⟩ := h row (by simp)
    have ih := ih fun r hr => h r (by simp [hr])
    simp only [colTextsOf] at ih
    simp only [colTextsOf, List.map_cons, colWritten, hc, Option.getD_some, ih, writtenOf]
    cases hnum : ty.numeric with
    | false => simp
    | true =>
      obtain ⟨w, hw⟩ := Option.isSome_iff_exists.1 (hn hnum)
      simp [hw]

/-- The columns of the matrix. -/
def padCols (P : PrintEnv) (H : Heap) (rows : List (List (Cell Addr))) : Nat → List GoStr → List ColType → List PrintCol
  | c, n :: names, ty :: types =>
    { numeric := ty.numeric, width := colWidth n ty (colTextsOf P H ty c rows),
      texts := n :: ty.name :: rows.map fun row => writtenOf P H ty (precOf P H ty c rows) ((row[c]?).getD .nil) } :: padCols P H rows (c + 1) names types
  | _, _, _ => []

theorem printCols_eq (P : PrintEnv) (H : Heap) (rows : List (List (Cell Addr))) (names : List GoStr) (types : List ColType) (c : Nat)
    (h : ∀ i ty, types[i]? = some ty → ColOK P H ty (c + i) rows) : printCols P H rows c names types = .ok (some (padCols P H rows c names types)) := by
  induction names generalizing types c with
  | nil => simp [printCols, padCols]
  | cons n names ih =>
    cases types with
    | nil => simp [printCols, padCols]
    | cons ty types =>
      have h0 := h 0 ty rfl
      have hi := ih types (c + 1) fun i ty' hi => by
        have := h (i + 1) ty' (by simpa using hi)
        rwa [show c + (i + 1) = c + 1 + i by omega] at this
      rw [Nat.add_zero] at h0
      have h1 := colTexts_eq P H ty c rows fun row hr => by
        obtain ⟨cell, hc, ⟨s, hs⟩, _⟩ := h0 row hr
        exact ⟨cell, s, hc, hs⟩
      have h2 := colWritten_eq P H ty c _ rows h0
      unfold precOf at h2
      simp [printCols, h1, h2, hi, Out.bind, padCols, precOf]

/-- The text of a column in a line. -/
def textAt (r : Nat) (col : PrintCol) : GoStr := (col.texts[r]?).getD []

theorem padCols_names (P : PrintEnv) (H : Heap) (rows : List (List (Cell Addr))) (names : List GoStr) (types : List ColType) (c : Nat) (hlen : types.length = names.length) :
    (padCols P H rows c names types).map (textAt 0) = names ∧ (padCols P H rows c names types).map (textAt 1) = types.map ColType.name := by
  induction names generalizing types c with
  | nil =>
    match types, hlen with
    | [], _ => exact ⟨rfl, rfl⟩
  | cons n names ih =>
    match types, hlen with
    | ty :: types, hlen =>
      have := ih types (c + 1) (by simpa using hlen)
      constructor
      · simp only [padCols, List.map_cons, this.1]; rfl
      · simp only [padCols, List.map_cons, this.2]; rfl

theorem padCols_row (P : PrintEnv) (H : Heap) (rows : List (List (Cell Addr))) (r : Nat) (row : List (Cell Addr)) (hr : rows[r]? = some row)
    (names : List GoStr) (types : List ColType) (c : Nat) (hlen : types.length = names.length) (hrow : row.length = c + types.length)
    (R : ColType → Nat → Cell Addr → GoStr → Prop) (hR : ∀ i ty cell, types[i]? = some ty → row[c + i]? = some cell → R ty (precOf P H ty (c + i) rows) cell (writtenOf P H ty (precOf P H ty (c + i) rows) cell)) :
    Pointwise (fun (x : ColType × Cell Addr) (col : PrintCol) => col.numeric = x.1.numeric ∧ ∃ prec, R x.1 prec x.2 (textAt (r + 2) col)) (types.zip (row.drop c))
      (padCols P H rows c names types) := by
  induction names generalizing types c with
  | nil =>
    match types, hlen with
    | [], _ => trivial
  | cons n names ih =>
    match types, hlen with
    | ty :: types, hlen =>
      have hi := ih types (c + 1) (by simpa using hlen) (by simp at hrow; omega) fun i ty' cell h1 h2 => by
        have := hR (i + 1) ty' cell (by simpa using h1) (by rwa [show c + (i + 1) = c + 1 + i by omega])
        rwa [show c + (i + 1) = c + 1 + i by omega] at this
      have hc : c < row.length := by simp at hrow; omega
      rw [List.drop_eq_getElem_cons hc]
      refine ⟨⟨rfl, precOf P H ty c rows, ?_⟩, hi⟩
      have := hR 0 ty row[c] rfl (by simp [hc])
      simpa [textAt, hr, hc] using this

/-! ## Lines -/

theorem padding_sp (w : Nat) (s : GoStr) : padding w s = sp (w - runeCount 0 s) := rfl

theorem trimRightSpaces_of {s : GoStr} {c : UInt8} (h : s.getLast? = some c) (hc : c ≠ 32) : trimRightSpaces s = s := by
  unfold trimRightSpaces
  have : s.reverse.head? = some c := by rw [List.head?_reverse]; exact h
  match hr : s.reverse, this with
  | d :: ds, e =>
    simp only [List.head?_cons, Option.some.injEq] at e
    subst e
    rw [List.dropWhile_cons_of_neg (by simpa using hc), ← hr, List.reverse_reverse]

theorem trimRightSpaces_sp {s : GoStr} {c : UInt8} (m : Nat) (h : s.getLast? = some c) (hc : c ≠ 32) : trimRightSpaces (s ++ sp m) = s := by
  have hs := trimRightSpaces_of h hc
  unfold trimRightSpaces at hs ⊢
  rw [List.reverse_append, show (sp m).reverse = sp m by simp [sp], List.dropWhile_append_of_pos (by intro x hx; simpa [sp] using (List.mem_replicate.1 hx).2)]
  exact hs

/-- The column holds in line `r` the token and, if it is numeric, spaces. -/
def HoldsTok (r : Nat) (col : PrintCol) (tok : GoStr) : Prop :=
  ∃ m c, textAt r col = tok ++ sp m ∧ tok.getLast? = some c ∧ c ≠ 32 ∧ (col.numeric = false → m = 0)

theorem matrixLine_toks (r : Nat) (cols : List PrintCol) (toks : List GoStr) (hne : cols ≠ []) (h : Pointwise (HoldsTok r) cols toks) :
    LineToks (matrixLine r cols) toks := by
  induction cols generalizing toks with
  | nil => exact absurd rfl hne
  | cons col cols ih =>
    match toks, h with
    | tok :: toks, ⟨⟨m, c, hm, hc, h32, hnum⟩, hrest⟩ =>
    cases cols with
    | nil =>
      match toks, hrest with
      | [], _ =>
      simp only [matrixLine]
      rw [show (col.texts[r]?).getD [] = textAt r col from rfl]
      split
      · refine ⟨col.width - runeCount 0 (textAt r col), 0, tok, [], ?_, rfl⟩
        rw [hm, ← List.append_assoc, trimRightSpaces_sp (c := c) m (by rw [List.getLast?_append, hc]; rfl) h32, ← hm]
        simp [spaced, sp, padding]
      · next hn =>
        rw [hnum (by simpa using hn)] at hm
        exact ⟨0, 0, tok, [], by rw [hm]; simp [spaced, sp], rfl⟩
    | cons col' cols =>
      obtain ⟨a, b, t, q, h1, h2⟩ := ih toks (by simp) hrest
      simp only [matrixLine]
      rw [show (col.texts[r]?).getD [] = textAt r col from rfl, h1]
      have hgap : ∀ w (rest : GoStr), sp w ++ 32 :: (sp a ++ rest) = 32 :: (sp (w + a) ++ rest) := by
        intro w rest
        have : sp w ++ 32 :: sp a = 32 :: sp (w + a) := by
          rw [show (32 :: sp a : GoStr) = sp (a + 1) from rfl, show (32 :: sp (w + a) : GoStr) = sp (w + a + 1) from rfl, ← sp_add, Nat.add_assoc]
        rw [← List.cons_append, ← List.append_assoc, this, List.cons_append]
      split
      · refine ⟨col.width - runeCount 0 (textAt r col), b, tok, (m + a, t) :: q, ?_, by simp [h2]⟩
        rw [padding_sp]
        generalize col.width - runeCount 0 (textAt r col) = w
        rw [hm]
        simp only [spaced, List.append_assoc, List.cons_append, hgap]
      · next hn =>
        rw [hnum (by simpa using hn)] at hm
        refine ⟨0, b, tok, (col.width - runeCount 0 (textAt r col) + a, t) :: q, ?_, by simp [h2]⟩
        rw [padding_sp]
        generalize col.width - runeCount 0 (textAt r col) = w
        rw [hm]
        simp only [spaced, List.append_assoc, List.cons_append, hgap, show sp 0 = [] from rfl, List.nil_append]

theorem pointwise_range {α β γ : Type} {R : γ → β → Prop} {S : α → β → Prop} (rows : List α) (f : Nat → γ)
    (h : ∀ (i : Nat) row, rows[i]? = some row → ∃ b, R (f i) b ∧ S row b) :
    ∃ bs, Pointwise R ((List.range rows.length).map f) bs ∧ Pointwise S rows bs := by
  induction rows generalizing f with
  | nil => exact ⟨[], trivial, trivial⟩
  | cons row rows ih =>
    obtain ⟨b, hb1, hb2⟩ := h 0 row rfl
    obtain ⟨bs, h1, h2⟩ := ih (fun i => f (i + 1)) fun i row hi => h (i + 1) row (by simpa using hi)
    refine ⟨b :: bs, ?_, hb2, h2⟩
    rw [List.length_cons, List.range_succ_eq_map, List.map_cons, List.map_map]
    exact ⟨hb1, h1⟩

theorem endByte_ne {c : UInt8} (h : endByte c = true) : c ≠ 32 := by
  rintro rfl
  exact absurd h (by decide)

theorem paddedType_facts {ty : ColType} (h : paddedType ty = true) :
    ty ≠ .table ∧ (ty.numeric = true → ty.intKind?.isSome = true ∨ ty = .float32 ∨ ty = .float64) := by
  cases ty <;> simp_all [paddedType, ColType.numeric, ColType.intKind?]

theorem cellText_int {P : PrintEnv} {H : Heap} {ty : ColType} {c : Cell Addr} {s : GoStr} (hk : ty.intKind?.isSome = true) (h : cellText P H ty c = .ok s) :
    ∃ k v, c = .int k v ∧ s = fmtInt v := by
  cases c with
  | int k v =>
    have e : cellText P H ty (.int k v) = if ty.intKind? = some k then .ok (fmtInt v) else .panic := by
      cases ty <;> first | rfl | exact absurd hk (by decide)
    rw [e] at h
    split at h
    · simp only [Out.ok.injEq] at h
      exact ⟨k, v, rfl, h.symm⟩
    · simp at h
  | _ =>
    exfalso
    revert h
    cases ty <;> first | exact absurd hk (by decide) | exact fun h => absurd (show Out.panic = Out.ok s from h) (by simp)

theorem holdsTok_map (r : Nat) (cols : List PrintCol) (h : ∀ col ∈ cols, ∃ c, (textAt r col).getLast? = some c ∧ c ≠ 32) :
    Pointwise (HoldsTok r) cols (cols.map (textAt r)) := by
  induction cols with
  | nil => trivial
  | cons col cols ih =>
    obtain ⟨c, h1, h2⟩ := h col (by simp)
    exact ⟨⟨0, c, by simp [sp], h1, h2, fun _ => rfl⟩, ih fun x hx => h x (by simp [hx])⟩

/-! ## Cells -/

/-- The text consists of a token that is read as the cell, and spaces. -/
def WrittenAs (P : PrintEnv) (ty : ColType) (c : Cell Addr) (w : GoStr) : Prop :=
  ∃ tok m c', w = tok ++ sp m ∧ (ty.numeric = false → m = 0) ∧ GoodText tok ∧ ReadsAs P.text ty tok c' ∧ SameValue c c'

theorem padded_nan : padTrailingZeros (gs! "NaN") = gs! "NaN" := by decide +kernel

theorem written64 (P : PrintEnv) (hP : P.text.float = goFloat) (b : BitVec 64) (prec : Nat) (hs : finite64 b ∨ isNaN64 b = true) (hb : ¬ BadPower64 b)
    (hp : (decimalParts (P.text.float.fmt64 b)).2.2 ≤ prec) :
    ∃ w, numericText P .float64 (.f64 b) prec = some w ∧ WrittenAs P .float64 (.f64 b) w := by
  have hF : FloatOK P.text.float := by rw [hP]; exact floatOK_go
  have hnt : numericText P .float64 (.f64 b) prec = (P.text.float.parse64 (P.text.float.fmt64 b)).map fun x => padTrailingZeros (P.text.float.prec64 x prec) := rfl
  rw [hnt]
  rcases hs with h | h
  · rw [hF.back64 b h]
    obtain ⟨c, k, m, e1, e2⟩ := FloatFmt.padded_back .f64 (by decide) (decide (2 ^ 63 ≤ b.toNat)) (b.toNat % 2 ^ 63) prec h (by rw [hP] at hp; exact hp) (by
      rcases Decidable.em (FloatFmt.f64.fails (b.toNat % 2 ^ 63 / 2 ^ FloatFmt.f64.mant - 2) prec) with hf | hf
      · obtain ⟨n, hn, e⟩ := FloatFmt.fails64 _ _ hf
        by_cases h1 : b.toNat % 2 ^ 63 % 2 ^ 52 = 0
        · by_cases h2 : b.toNat % 2 ^ 63 / 2 ^ 52 ≤ 1
          · exact .inr (.inl h2)
          · refine absurd ⟨n, hn, ?_⟩ hb
            have e' : b.toNat % 2 ^ 63 / 2 ^ 52 - 2 + 2 = 1023 - n := e
            omega
        · exact .inl h1
      · exact .inr (.inr hf))
    refine ⟨_, rfl, (if decide (2 ^ 63 ≤ b.toNat) then [45] else []) ++ FloatFmt.decimal c k, m, .f64 b, ?_, by simp [ColType.numeric], ?_⟩
    · rw [hP]; exact e1
    · have hpar : P.text.float.parse64 ((if decide (2 ^ 63 ≤ b.toNat) then [45] else []) ++ FloatFmt.decimal c k) = some b := by
        rw [hP]
        show Option.map _ (FloatFmt.f64.parse _) = _
        rw [e2]
        exact congrArg some (join_sign 63 b)
      obtain ⟨g1, g2⟩ := float64_reads_decimal P.text _ b (decimal_text _ c k) hpar h
      exact ⟨g1, g2, .inl rfl⟩
  · obtain ⟨y, hy, hyn⟩ := hF.nanBack64
    have hpy : P.text.float.prec64 y prec = gs! "NaN" := by
      rw [hP]
      exact if_pos (by simpa [isNaN64, isNaNBits, FloatFmt.f64] using hyn)
    obtain ⟨g1, c', g2, g3⟩ := float64_reads P.text hF b (.inr h)
    rw [hF.nan64 b h] at g1 g2
    rw [hF.nan64 b h]
    refine ⟨gs! "NaN", ?_, gs! "NaN", 0, c', by simp [sp], fun _ => rfl, g1, g2, g3⟩
    rw [hy, Option.map_some, hpy, padded_nan]

theorem written32 (P : PrintEnv) (hP : P.text.float = goFloat) (b : BitVec 32) (prec : Nat) (hs : finite32 b ∨ isNaN32 b = true) (hb : ¬ BadPower32 b)
    (hp : (decimalParts (P.text.float.fmt32 b)).2.2 ≤ prec) :
    ∃ w, numericText P .float32 (.f32 b) prec = some w ∧ WrittenAs P .float32 (.f32 b) w := by
  have hF : FloatOK P.text.float := by rw [hP]; exact floatOK_go
  have hnt : numericText P .float32 (.f32 b) prec = (P.text.float.parse32 (P.text.float.fmt32 b)).map fun x => padTrailingZeros (P.text.float.prec32 x prec) := rfl
  rw [hnt]
  rcases hs with h | h
  · rw [hF.back32 b h]
    obtain ⟨c, k, m, e1, e2⟩ := FloatFmt.padded_back .f32 (by decide) (decide (2 ^ 31 ≤ b.toNat)) (b.toNat % 2 ^ 31) prec h (by rw [hP] at hp; exact hp) (by
      rcases Decidable.em (FloatFmt.f32.fails (b.toNat % 2 ^ 31 / 2 ^ FloatFmt.f32.mant - 2) prec) with hf | hf
      · have e := FloatFmt.fails32 _ _ hf
        by_cases h1 : b.toNat % 2 ^ 31 % 2 ^ 23 = 0
        · by_cases h2 : b.toNat % 2 ^ 31 / 2 ^ 23 ≤ 1
          · exact .inr (.inl h2)
          · refine absurd ?_ hb
            have e' : b.toNat % 2 ^ 31 / 2 ^ 23 - 2 + 2 = 127 - 96 := e
            unfold BadPower32
            omega
        · exact .inl h1
      · exact .inr (.inr hf))
    refine ⟨_, rfl, (if decide (2 ^ 31 ≤ b.toNat) then [45] else []) ++ FloatFmt.decimal c k, m, .f32 b, ?_, by simp [ColType.numeric], ?_⟩
    · rw [hP]; exact e1
    · have hpar : P.text.float.parse32 ((if decide (2 ^ 31 ≤ b.toNat) then [45] else []) ++ FloatFmt.decimal c k) = some b := by
        rw [hP]
        show Option.map _ (FloatFmt.f32.parse _) = _
        rw [e2]
        exact congrArg some (join_sign 31 b)
      obtain ⟨g1, g2⟩ := float32_reads_decimal P.text _ b (decimal_text _ c k) hpar h
      exact ⟨g1, g2, .inl rfl⟩
  · obtain ⟨y, hy, hyn⟩ := hF.nanBack32
    have hpy : P.text.float.prec32 y prec = gs! "NaN" := by
      rw [hP]
      exact if_pos (by simpa [isNaN32, isNaNBits, FloatFmt.f32] using hyn)
    obtain ⟨g1, c', g2, g3⟩ := float32_reads P.text hF b (.inr h)
    rw [hF.nan32 b h] at g1 g2
    rw [hF.nan32 b h]
    refine ⟨gs! "NaN", ?_, gs! "NaN", 0, c', by simp [sp], fun _ => rfl, g1, g2, g3⟩
    rw [hy, Option.map_some, hpy, padded_nan]

theorem time_reads (P : PrintEnv) (hG : P.IsGo) {v : GoTime} (h : TimeSafe v) (h9 : v.nsec = 0 ∨ v.nsec % 10 ≠ 0) : ReadsAs P.text .time (goFormatTime v) (.time v) := by
  intro H a rest _
  obtain ⟨l, hl⟩ := hG.parseTime
  have e : 60 * v.off.tdiv 60 = v.off := Int.mul_tdiv_cancel' h.minutes
  have hp := parse_format v ⟨h.fromYear0, h.toYear9999⟩ h.nanos h.lessThanADay
  rw [e, show v.sec + v.off - v.off = v.sec by omega] at hp
  simp only [readCell, ColType.intKind?, readTime]
  rw [scanTime_fmt v ⟨h.fromYear0, h.toYear9999⟩ h.nanos h.lessThanADay h9]
  simp only [hl, goParseTime, hp, Out.bind]

theorem written_reads (P : PrintEnv) (hG : P.IsGo) (H : Heap) {ty : ColType} {c : Cell Addr} (prec : Nat) (hty : paddedType ty = true) (hc : c.HasType ty)
    (hs : TextSafe ty c) (hsafe : PadSafe c) (hp : (decimalParts (textOf P H ty c)).2.2 ≤ prec) :
    CellOK P H ty prec c ∧ WrittenAs P ty c (writtenOf P H ty prec c) := by
  have hP := hG.float
  have hF : FloatOK P.text.float := by rw [hP]; exact floatOK_go
  obtain ⟨t1, t3⟩ := paddedType_facts hty
  by_cases t2 : ty = .time
  · subst t2
    cases c with
    | time v =>
      have e : cellText P H .time (.time v) = .ok (goFormatTime v) :=
        (show cellText P H .time (.time v) = .ok (P.fmtTime v) from rfl).trans (by rw [hG.fmtTime])
      refine ⟨⟨⟨_, e⟩, by simp [ColType.numeric]⟩, goFormatTime v, 0, .time v, ?_, fun _ => rfl, fmtTime_good v, time_reads P hG hsafe.1 hsafe.2, rfl⟩
      simp [writtenOf, ColType.numeric, textOf_eq e, sp]
    | _ => exact absurd hc (by simp [Cell.HasType])
  obtain ⟨s, c', h1, h2, h3, h4⟩ := cellText_reads P hF H hc hs t1 t2
  cases hn : ty.numeric with
  | false =>
    refine ⟨⟨⟨s, h1⟩, by simp [hn]⟩, s, 0, c', ?_, fun _ => rfl, h2, h3, h4⟩
    simp [writtenOf, hn, textOf_eq h1, sp]
  | true =>
    have key : ∀ w, numericText P ty c prec = some w → WrittenAs P ty c w → CellOK P H ty prec c ∧ WrittenAs P ty c (writtenOf P H ty prec c) := by
      intro w hw hr
      refine ⟨⟨⟨s, h1⟩, by simp [hw]⟩, ?_⟩
      simpa [writtenOf, hn, hw] using hr
    rcases t3 hn with hk | rfl | rfl
    · obtain ⟨k, v, rfl, rfl⟩ := cellText_int hk h1
      refine key (fmtInt v) ?_ ⟨fmtInt v, 0, c', by simp [sp], fun _ => rfl, h2, h3, h4⟩
      rw [numericText_int, nearestDoubleInt_small hsafe]
    · cases c with
      | f32 b =>
        obtain ⟨w, hw, hr⟩ := written32 P hP b prec hs hsafe hp
        exact key w hw hr
      | _ => exact absurd hc (by simp [Cell.HasType])
    · cases c with
      | f64 b =>
        obtain ⟨w, hw, hr⟩ := written64 P hP b prec hs hsafe hp
        exact key w hw hr
      | _ => exact absurd hc (by simp [Cell.HasType])

theorem foldl_max_le (l : List Nat) (a x : Nat) (h : x ≤ a ∨ x ∈ l) : x ≤ l.foldl max a := by
  induction l generalizing a with
  | nil => simpa using h
  | cons y l ih =>
    rw [List.foldl_cons]
    apply ih
    rcases h with h | h
    · exact .inl (Nat.le_trans h (Nat.le_max_left _ _))
    · rcases List.mem_cons.1 h with rfl | h
      · exact .inl (Nat.le_max_right _ _)
      · exact .inr h

theorem le_precOf {P : PrintEnv} {H : Heap} {ty : ColType} {c : Nat} {rows : List (List (Cell Addr))} {row : List (Cell Addr)} {cell : Cell Addr}
    (hr : row ∈ rows) (hc : row[c]? = some cell) : (decimalParts (textOf P H ty cell)).2.2 ≤ precOf P H ty c rows := by
  unfold precOf colPrecision maxOf
  refine foldl_max_le _ _ _ (.inr ?_)
  rw [List.mem_map]
  refine ⟨textOf P H ty cell, ?_, rfl⟩
  unfold colTextsOf
  rw [List.mem_map]
  exact ⟨row, hr, by rw [hc]; rfl⟩

theorem padded_items (P : PrintEnv) (r : Nat) (types : List ColType) (row : List (Cell Addr)) (cols : List PrintCol) (hlen : row.length = types.length)
    (h : Pointwise (fun (x : ColType × Cell Addr) (col : PrintCol) => col.numeric = x.1.numeric ∧ ∃ _prec : Nat, WrittenAs P x.1 x.2 (textAt r col)) (types.zip row) cols) :
    ∃ items : List RowItem, Pointwise (HoldsTok r) cols (items.map fun y => y.2.1) ∧ items.map (fun y => y.1) = types ∧
      Pointwise SameValue row (items.map fun y => y.2.2) ∧ ∀ y ∈ items, GoodText y.2.1 ∧ ReadsAs P.text y.1 y.2.1 y.2.2 := by
  induction types generalizing row cols with
  | nil =>
    match row, hlen, cols, h with
    | [], _, [], _ => exact ⟨[], trivial, rfl, trivial, by simp⟩
  | cons ty types ih =>
    match row, hlen, cols, h with
    | c :: row, hlen, col :: cols, h =>
      obtain ⟨items, i1, i2, i3, i4⟩ := ih row cols (by simpa using hlen) h.2
      obtain ⟨⟨hnum, _, tok, m, c', e1, e2, e3, e4, e5⟩, _⟩ := h
      obtain ⟨x, hx, he⟩ := e3.2.1
      refine ⟨(ty, tok, c') :: items, ⟨⟨m, x, e1, hx, endByte_ne he, fun hn => e2 (by rw [← hnum]; exact hn)⟩, i1⟩, by simp [i2], ⟨e5, i3⟩, ?_⟩
      intro y hy
      rcases List.mem_cons.1 hy with rfl | hy
      · exact ⟨e3, e4⟩
      · exact i4 y hy

theorem stringPadded_lines (P : PrintEnv) (hP : P.IsGo) (H : Heap) {t : Table Addr} (h : Writable paddedType t)
    (hint : ∀ row ∈ t.rows, ∀ c ∈ row, PadSafe c) (hshape : t.isStructShape = false ∨ 1 < t.rows.length) :
    ∃ ls rows', stringPadded P H t = .ok (unlines ls) ∧ TableLines P.text t.name t.colNames t.colTypes rows' ls ∧ SameRows t.rows rows' ∧
      ls ≠ [] ∧ ∀ l ∈ ls, 10 ∉ l := by
  have hs : ¬ (t.isStructShape = true ∧ t.rows.length ≤ 1) := by
    rintro ⟨h1, h2⟩
    rcases hshape with h | h
    · simp [h] at h1
    · omega
  have hh := headerLine_noNewline (h.wf.nameValid h.notNil)
  have hcell : ∀ i ty row cell, t.colTypes[i]? = some ty → row ∈ t.rows → row[i]? = some cell →
      CellOK P H ty (precOf P H ty i t.rows) cell ∧ WrittenAs P ty cell (writtenOf P H ty (precOf P H ty i t.rows) cell) := by
    intro i ty row cell hi hr hc
    have hrow := h.wf.rowsOK row hr
    have hsafe : TextSafe ty cell := by
      obtain ⟨c, hc', hc''⟩ := (h.safe row hr).get i ty hi
      rw [hc] at hc'
      cases hc'
      exact hc''
    exact written_reads P hP H _ (h.colTypes ty (List.mem_of_getElem? hi)) (hrow.2 i ty _ hi hc) hsafe (hint row hr _ (List.mem_of_getElem? hc)) (le_precOf hr hc)
  have hcol : ∀ i ty, t.colTypes[i]? = some ty → ColOK P H ty (0 + i) t.rows := by
    intro i ty hi row hr
    rw [Nat.zero_add]
    have hrow := h.wf.rowsOK row hr
    have hlt : i < row.length := by rw [hrow.1]; exact (List.getElem?_eq_some_iff.1 hi).1
    have hc : row[i]? = some row[i] := List.getElem?_eq_getElem hlt
    exact ⟨row[i], hc, (hcell i ty row _ hi hr hc).1⟩
  have hcols := printCols_eq P H t.rows t.colNames t.colTypes 0 hcol
  by_cases hn : t.colNames = []
  · have ht : t.colTypes = [] := by
      have := h.wf.typesLen
      rw [hn] at this
      exact List.eq_nil_of_length_eq_zero this
    have hr := h.hasCols hn
    refine ⟨[headerLine t.name], [], ?_, ?_, ?_, by simp, ?_⟩
    · rw [stringPadded, hcols]
      simp only [Out.bind]
      rw [if_neg hs]
      simp [hn, unlines, headerLine]
    · rw [hn, ht]; exact .noCols
    · rw [hr]; exact trivial
    · simpa using hh
  · have ht : t.colTypes ≠ [] := by
      intro e
      have := h.wf.typesLen
      rw [e] at this
      exact hn (List.eq_nil_of_length_eq_zero this.symm)
    have hpne : padCols P H t.rows 0 t.colNames t.colTypes ≠ [] := by
      match hx : t.colNames, hn, hy : t.colTypes, ht with
      | n :: ns, _, ty :: tys, _ => simp [padCols]
    obtain ⟨p1, p2⟩ := padCols_names P H t.rows t.colNames t.colTypes 0 h.wf.typesLen
    -- the line of names
    have hl0 := matrixLine_toks 0 _ _ hpne (holdsTok_map 0 _ fun col hcol => by
      have hm : textAt 0 col ∈ t.colNames := by rw [← p1]; exact List.mem_map_of_mem hcol
      have hb := isValidName_bytes (isValidColName_name (h.wf.namesValid _ hm)).1
      cases hl : (textAt 0 col).getLast? with
      | none => rw [List.getLast?_eq_none_iff] at hl; exact absurd hl hb.1
      | some c => exact ⟨c, rfl, endByte_ne (nameByte_facts c (hb.2 c (List.mem_of_getLast? hl))).1⟩)
    rw [p1] at hl0
    obtain ⟨n1, n2⟩ := lineToks_names hl0 h.wf.namesValid
    -- the line of types
    have hl1 := matrixLine_toks 1 _ _ hpne (holdsTok_map 1 _ fun col hcol => by
      have hm : textAt 1 col ∈ t.colTypes.map ColType.name := by rw [← p2]; exact List.mem_map_of_mem hcol
      obtain ⟨ty, _, hty⟩ := List.mem_map.1 hm
      have hb := typeName_good ty
      rw [hty] at hb
      cases hl : (textAt 1 col).getLast? with
      | none => rw [List.getLast?_eq_none_iff] at hl; exact absurd hl hb.1
      | some c => exact ⟨c, rfl, endByte_ne (visible_facts c (hb.2.1 c (List.mem_of_getLast? hl)).1).2.2.1⟩)
    rw [p2] at hl1
    obtain ⟨t1, t2⟩ := lineToks_types hl1
    -- the rows
    have hrows : ∀ (i : Nat) row, t.rows[i]? = some row → ∃ row', (RowLine P.text t.colTypes (matrixLine (i + 2) (padCols P H t.rows 0 t.colNames t.colTypes)) row' ∧
        10 ∉ matrixLine (i + 2) (padCols P H t.rows 0 t.colNames t.colTypes)) ∧ Pointwise SameValue row row' := by
      intro i row hi
      have hr := List.mem_of_getElem? hi
      have hrow := h.wf.rowsOK row hr
      have hp := padCols_row P H t.rows i row hi t.colNames t.colTypes 0 h.wf.typesLen (by rw [hrow.1, Nat.zero_add]) (fun ty _ cell w => WrittenAs P ty cell w)
        fun j ty cell h1 h2 => by
          rw [Nat.zero_add] at h2 ⊢
          exact (hcell j ty row cell h1 hr h2).2
      rw [List.drop_zero] at hp
      obtain ⟨items, i1, i2, i3, i4⟩ := padded_items P (i + 2) t.colTypes row _ hrow.1 hp
      have hl := matrixLine_toks (i + 2) _ _ hpne i1
      obtain ⟨l1, l2⟩ := lineToks_row P.text hl i4
      rw [i2] at l1
      exact ⟨_, ⟨l1, l2⟩, i3⟩
    obtain ⟨rows', r1, r2⟩ := pointwise_range (R := fun l row' => RowLine P.text t.colTypes l row' ∧ 10 ∉ l) t.rows _ hrows
    have r1a : Pointwise (RowLine P.text t.colTypes) ((List.range t.rows.length).map fun i => matrixLine (i + 2) (padCols P H t.rows 0 t.colNames t.colTypes)) rows' := by
      generalize (List.range t.rows.length).map (fun i => matrixLine (i + 2) (padCols P H t.rows 0 t.colNames t.colTypes)) = ls at r1
      clear r2
      induction ls generalizing rows' with
      | nil =>
        match rows', r1 with
        | [], _ => trivial
      | cons l ls ih =>
        match rows', r1 with
        | r :: rows', r1 => exact ⟨r1.1.1, ih rows' r1.2⟩
    refine ⟨headerLine t.name :: matrixLine 0 (padCols P H t.rows 0 t.colNames t.colTypes) :: matrixLine 1 (padCols P H t.rows 0 t.colNames t.colTypes) ::
      (List.range t.rows.length).map fun i => matrixLine (i + 2) (padCols P H t.rows 0 t.colNames t.colTypes), rows', ?_, .cols n1 t1 r1a, r2, by simp, ?_⟩
    · rw [stringPadded, hcols]
      simp only [Out.bind]
      rw [if_neg hs]
      simp only [hn, if_false, unlines]
      rw [List.range_succ_eq_map, List.range_succ_eq_map]
      simp [headerLine, List.map_map, Function.comp_def]
    · intro l hl
      simp only [List.mem_cons, List.mem_map, List.mem_range] at hl
      rcases hl with rfl | rfl | rfl | ⟨i, hi, rfl⟩
      · exact hh
      · exact n2
      · exact t2
      · obtain ⟨_, ⟨_, hx⟩, _⟩ := hrows i _ (List.getElem?_eq_getElem hi)
        exact hx

end Verif
