import Verif.Model.Printer
import Verif.Spec.Text
import Verif.Lemmas.Lines
import Verif.Props.C32
import Verif.Props.C34
import Verif.Props.C35

/-!
# Lemmas: printed cells are read back
-/

namespace Verif

/-- The text can stand in a line: it begins with a visible ASCII character other than `#`, ends with a character that is not space, and contains no
newline. -/
def GoodText (s : GoStr) : Prop :=
  (∃ d ds, s = d :: ds ∧ d.toNat < 0x80 ∧ isSpaceRune d.toNat = false ∧ d ≠ 35) ∧ (∃ c, s.getLast? = some c ∧ endByte c = true) ∧ 10 ∉ s

/-- Visible ASCII characters. -/
def visible (c : UInt8) : Bool := 33 ≤ c && c ≤ 126

theorem visible_facts (c : UInt8) (h : visible c = true) : c.toNat < 0x80 ∧ isSpaceRune c.toNat = false ∧ endByte c = true ∧ c ≠ 10 := by
  have := u8_all (fun c => !visible c || (decide (c.toNat < 0x80) && !isSpaceRune c.toNat && endByte c && c ≠ 10)) (by decide +kernel) c
  simp only [h, Bool.not_true, Bool.false_or, Bool.and_eq_true, decide_eq_true_eq, Bool.not_eq_eq_eq_not] at this
  exact ⟨this.1.1.1, this.1.1.2, this.1.2, by simpa using this.2⟩

theorem goodText_visible {s : GoStr} (hne : s ≠ []) (h : ∀ c ∈ s, visible c = true) (h35 : s.head? ≠ some 35) : GoodText s := by
  refine ⟨?_, ?_, fun hm => (visible_facts 10 (h 10 hm)).2.2.2 rfl⟩
  · match s, hne with
    | d :: ds, _ =>
      have := visible_facts d (h d (by simp))
      exact ⟨d, ds, rfl, this.1, this.2.1, fun e => h35 (by simp [e])⟩
  · cases hl : s.getLast? with
    | none => rw [List.getLast?_eq_none_iff] at hl; exact absurd hl hne
    | some c => exact ⟨c, rfl, (visible_facts c (h c (List.mem_of_getLast? hl))).2.2.1⟩

theorem goodText_quoted (q : UInt8) (hq : q = 34 ∨ q = 39 ∨ q = 91) (q' : UInt8) (hq' : visible q' = true) (s : GoStr) (h : 10 ∉ s) :
    GoodText (q :: s ++ [q']) := by
  refine ⟨⟨q, s ++ [q'], rfl, ?_⟩, ⟨q', ?_, (visible_facts q' hq').2.2.1⟩, ?_⟩
  · rcases hq with rfl | rfl | rfl <;> decide
  · rw [List.getLast?_append]; rfl
  · simp only [List.cons_append, List.mem_cons, List.mem_append, List.not_mem_nil, or_false, not_or]
    refine ⟨?_, h, fun e => (visible_facts q' hq').2.2.2 e.symm⟩
    rcases hq with rfl | rfl | rfl <;> decide

theorem fmtNat_visible (n : Nat) : ∀ c ∈ fmtNat n, isDec c = true := by
  have hd : ∀ d, d < 10 → isDec (UInt8.ofNat (48 + d)) = true := by
    intro d hd
    have : ∀ d : Fin 10, isDec (UInt8.ofNat (48 + d.val)) = true := by decide
    exact this ⟨d, hd⟩
  fun_induction fmtNat n with
  | case1 n h =>
    intro c hc
    simp only [List.mem_singleton] at hc
    subst hc; exact hd n h
  | case2 n h ih =>
    intro c hc
    rcases List.mem_append.1 hc with hc | hc
    · exact ih c hc
    · simp only [List.mem_singleton] at hc
      subst hc; exact hd _ (Nat.mod_lt _ (by omega))

theorem isDec_visible (c : UInt8) (h : isDec c = true) : visible c = true ∧ c ≠ 35 ∧ isWhite c = false ∧ c ≠ 93 := by
  have := u8_all (fun c => !isDec c || (visible c && c ≠ 35 && !isWhite c && c ≠ 93)) (by decide +kernel) c
  simp only [h, Bool.not_true, Bool.false_or, Bool.and_eq_true, Bool.not_eq_eq_eq_not] at this
  exact ⟨this.1.1.1, by simpa using this.1.1.2, this.1.2, by simpa using this.2⟩

theorem fmtNat_ne_nil (n : Nat) : fmtNat n ≠ [] := (fmtNat_spec n).1.1

theorem fmtInt_visible (v : Int) : fmtInt v ≠ [] ∧ (∀ c ∈ fmtInt v, visible c = true) ∧ (fmtInt v).head? ≠ some 35 := by
  unfold fmtInt
  split
  · refine ⟨by simp, fun c hc => ?_, by simp⟩
    rcases List.mem_cons.1 hc with rfl | hc
    · decide
    · exact (isDec_visible c (fmtNat_visible _ c hc)).1
  · refine ⟨fmtNat_ne_nil _, fun c hc => (isDec_visible c (fmtNat_visible _ c hc)).1, fun e => ?_⟩
    exact (isDec_visible 35 (fmtNat_visible _ 35 (List.mem_of_mem_head? e))).2.1 rfl

theorem numberEnds_of {rest : GoStr} (h : rest = [] ∨ rest.head? = some 32) : NumberEnds rest := by
  intro c hc
  rcases h with rfl | h
  · simp at hc
  · rw [h] at hc
    simp only [Option.mem_def, Option.some.injEq] at hc
    subst hc
    decide

/-! ## Floats -/

theorem scanSome_digits (ds rest : GoStr) (hd : Digits ds) (hr : ∀ c cs, rest = c :: cs → isDec c = false) : scanSome isDec (ds ++ rest) = some (ds, rest) := by
  have hall : ∀ c ∈ ds, isDec c = true := fun c hc => by
    have := hd.2 c hc
    simp [isDec, this.1, this.2]
  have h1 : (ds ++ rest).takeWhile isDec = ds := by
    rw [List.takeWhile_append_of_pos hall]
    cases rest with
    | nil => simp
    | cons c cs => simp [hr c cs rfl]
  have h2 : (ds ++ rest).dropWhile isDec = rest := by
    rw [List.dropWhile_append_of_pos hall]
    cases rest with
    | nil => simp
    | cons c cs => simp [hr c cs rfl]
  simp [scanSome, h1, h2, hd.1]

theorem scanFloat_decimal (s rest : GoStr) (h : DecimalText s) (hr : rest = [] ∨ rest.head? = some 32) : scanFloat (s ++ rest) = some (s, rest) := by
  obtain ⟨sign, ds, frac, rfl, hsign, hds, hfrac⟩ := h
  have hrest : ∀ c cs, rest = c :: cs → c = 32 := by
    rintro c cs rfl
    simpa using hr
  have hexp : scanExponent rest = ([], rest) := by
    cases rest with
    | nil => rfl
    | cons c cs =>
      have := hrest c cs rfl
      subst this
      rfl
  have hm : scanMantissa (ds ++ frac ++ rest) = some (ds ++ frac, rest) := by
    unfold scanMantissa
    rcases hfrac with rfl | ⟨fs, rfl, hfs⟩
    · rw [List.append_nil, scanSome_digits ds rest hds (fun c cs e => by rw [hrest c cs e]; decide)]
      cases rest with
      | nil => rfl
      | cons c cs =>
        have := hrest c cs rfl
        subst this
        rfl
    · rw [List.append_assoc, scanSome_digits ds (46 :: fs ++ rest) hds (fun c cs e => by
        simp only [List.cons_append, List.cons.injEq] at e; rw [← e.1]; decide)]
      have h2 := scanSome_digits fs rest hfs (fun c cs e => by rw [hrest c cs e]; decide)
      have h3 : (fs ++ rest).takeWhile isDec = fs ∧ (fs ++ rest).dropWhile isDec = rest := by
        unfold scanSome at h2
        split at h2
        · simp at h2
        · simpa using h2
      simp only [List.cons_append]
      rw [h3.1, h3.2]
  unfold scanFloat scanNumber
  rcases hsign with rfl | rfl
  · match ds, hds with
    | d :: ds, hds =>
      have hd := hds.2 d (by simp)
      have hn : ¬ (d = 43 ∨ d = 45) := by
        rintro (rfl | rfl) <;> exact absurd hd.1 (by decide)
      simp only [List.nil_append, List.cons_append, if_neg hn] at hm ⊢
      rw [hm]
      simp [hexp]
  · simp only [List.cons_append, List.nil_append, or_true, if_true] at hm ⊢
    rw [hm]
    simp [hexp]

theorem decimal_good (s : GoStr) (h : DecimalText s) : s ≠ [] ∧ (∀ c ∈ s, visible c = true) ∧ s.head? ≠ some 35 ∧ s ≠ gs! "NaN" := by
  obtain ⟨sign, ds, frac, rfl, hsign, hds, hfrac⟩ := h
  have hdig : ∀ ds : GoStr, Digits ds → ∀ c ∈ ds, isDec c = true := fun ds hd c hc => by
    have := hd.2 c hc
    simp [isDec, this.1, this.2]
  have h1 : ∀ c ∈ sign ++ ds ++ frac, isDec c = true ∨ c = 45 ∨ c = 46 := by
    intro c hc
    rw [List.mem_append, List.mem_append] at hc
    rcases hc with (hc | hc) | hc
    · rcases hsign with rfl | rfl <;> simp at hc
      exact .inr (.inl hc)
    · exact .inl (hdig ds hds c hc)
    · rcases hfrac with rfl | ⟨fs, rfl, hfs⟩
      · simp at hc
      · rcases List.mem_cons.1 hc with rfl | hc
        · simp
        · exact .inl (hdig fs hfs c hc)
  have h2 : sign ++ ds ++ frac ≠ [] := by simp [hds.1]
  refine ⟨h2, fun c hc => ?_, fun e => ?_, fun e => ?_⟩
  · rcases h1 c hc with h | rfl | rfl
    · exact (isDec_visible c h).1
    · decide
    · decide
  · rcases h1 35 (List.mem_of_mem_head? e) with h | h | h
    · exact absurd h (by decide)
    · exact absurd h (by decide)
    · exact absurd h (by decide)
  · have := h1 78 (by rw [e]; simp)
    exact absurd this (by decide)

theorem finite64_not_nan (b : BitVec 64) (h : finite64 b) : isNaN64 b = false := by
  unfold finite64 at h
  simp only [isNaN64, isNaNBits, decide_eq_false_iff_not]
  omega

theorem finite32_not_nan (b : BitVec 32) (h : finite32 b) : isNaN32 b = false := by
  unfold finite32 at h
  simp only [isNaN32, isNaNBits, decide_eq_false_iff_not]
  omega

theorem scanFloat_nan (rest : GoStr) : scanFloat (gs! "NaN" ++ rest) = some (gs! "NaN", rest) := by
  rfl

/-! ## Cells -/

theorem EscShape.noNewline {q r : Nat} {p : GoStr} (hs : EscShape q r p) (hv : ValidRune r) (hq : q = 34 ∨ q = 39) : ∀ c ∈ p, c ≠ 10 := by
  have hx : ∀ w n, ∀ c ∈ hexDigits w n, c ≠ 10 := by
    intro w n c hc e
    subst e
    induction w with
    | zero => simp [hexDigits] at hc
    | succ w ih =>
      simp only [hexDigits, List.mem_cons] at hc
      rcases hc with hc | hc
      · have : ∀ n : Fin 16, (10 : UInt8) ≠ hexDigit n.val := by decide
        exact this ⟨_, Nat.mod_lt _ (by omega)⟩ hc
      · exact ih hc
  intro c hc
  cases hs with
  | self h =>
    simp at hc
    rcases hc with rfl | rfl
    · decide
    · rcases h with rfl | rfl
      · rcases hq with rfl | rfl <;> decide
      · decide
  | letter h =>
    simp at h hc
    rcases h with ⟨rfl, _⟩ | ⟨rfl, _⟩ | ⟨rfl, _⟩ | ⟨rfl, _⟩ | ⟨rfl, _⟩ | ⟨rfl, _⟩ | ⟨rfl, _⟩ <;>
      (rcases hc with rfl | rfl <;> decide)
  | x => simp only [List.mem_cons] at hc; rcases hc with rfl | rfl | hc; (· decide); (· decide); exact hx _ _ c hc
  | u => simp only [List.mem_cons] at hc; rcases hc with rfl | rfl | hc; (· decide); (· decide); exact hx _ _ c hc
  | U => simp only [List.mem_cons] at hc; rcases hc with rfl | rfl | hc; (· decide); (· decide); exact hx _ _ c hc
  | raw h1 h2 h3 => exact encodeRune_avoid hv (n := 10) (by decide) h3 c hc

theorem int_reads (env : TextEnv) {ty : ColType} {k : IntKind} (hk : ty.intKind? = some k) (v : Int) (h1 : k.lo ≤ v) (h2 : v ≤ k.hi) :
    GoodText (fmtInt v) ∧ ReadsAs env ty (fmtInt v) (.int k v) := by
  have hv := fmtInt_visible v
  refine ⟨goodText_visible hv.1 hv.2.1 hv.2.2, fun H a rest hr => ?_⟩
  simp only [readCell, hk, C32_roundTrip k v h1 h2 rest (numberEnds_of hr), Out.bind]

theorem bool_reads (env : TextEnv) (b : Bool) :
    GoodText (if b then gs! "true" else gs! "false") ∧ ReadsAs env .bool (if b then gs! "true" else gs! "false") (.bool b) := by
  have hend : ∀ rest : GoStr, (rest = [] ∨ rest.head? = some 32) → rest = [] ∨ ∃ cs, rest = 32 :: cs := by
    intro rest hr
    rcases hr with rfl | hr
    · exact .inl rfl
    · match rest, hr with
      | c :: cs, hr => simp at hr; subst hr; exact .inr ⟨cs, rfl⟩
  constructor
  · cases b <;> exact goodText_visible (by decide) (by decide) (by decide)
  · intro H a rest hr
    rcases hend rest hr with rfl | ⟨cs, rfl⟩ <;> cases b <;> rfl

theorem string_reads (env : TextEnv) (hi : Nat → Bool) (s : GoStr) :
    GoodText (strconvQuote hi s) ∧ ReadsAs env .string (strconvQuote hi s) (.str s) := by
  constructor
  · refine goodText_quoted 34 (.inl rfl) 34 (by decide) _ fun hm => ?_
    exact C34_oneLine hi s (by simp [strconvQuote, hm])
  · intro H a rest _
    simp only [readCell, ColType.intKind?, C34_roundTrip, Out.bind]

theorem rune_reads (env : TextEnv) (hi : Nat → Bool) (r : Int) (h0 : 0 ≤ r) (hv : r < 0xD800 ∨ (0xE000 ≤ r ∧ r ≤ 0x10FFFF)) :
    GoodText (strconvQuoteRune hi r) ∧ ReadsAs env .rune (strconvQuoteRune hi r) (.int .int32 r) := by
  constructor
  · refine goodText_quoted 39 (.inr (.inl rfl)) 39 (by decide) _ fun hm => ?_
    have hvr : ValidRune r.toNat := by unfold ValidRune; omega
    rw [if_pos ⟨h0, hvr⟩] at hm
    exact (escapeRune_shape hi 39 r.toNat).noNewline hvr (.inr rfl) 10 hm rfl
  · intro H a rest _
    simp only [readCell, ColType.intKind?, C35_roundTrip hi r h0 hv, Out.bind]

theorem float64_reads_decimal (env : TextEnv) (s : GoStr) (b : BitVec 64) (hs : DecimalText s) (hp : env.float.parse64 s = some b) (h : finite64 b) :
    GoodText s ∧ ReadsAs env .float64 s (.f64 b) := by
  obtain ⟨g1, g2, g3, g4⟩ := decimal_good _ hs
  refine ⟨goodText_visible g1 g2 g3, fun H a rest hr => ?_⟩
  simp only [readCell, ColType.intKind?, readFloat64, scanFloat_decimal _ _ hs hr, hp, finite64_not_nan b h, Bool.false_eq_true, false_and,
    if_false, Out.bind]

theorem float32_reads_decimal (env : TextEnv) (s : GoStr) (b : BitVec 32) (hs : DecimalText s) (hp : env.float.parse32 s = some b) (h : finite32 b) :
    GoodText s ∧ ReadsAs env .float32 s (.f32 b) := by
  obtain ⟨g1, g2, g3, g4⟩ := decimal_good _ hs
  refine ⟨goodText_visible g1 g2 g3, fun H a rest hr => ?_⟩
  simp only [readCell, ColType.intKind?, readFloat32, scanFloat_decimal _ _ hs hr, hp, finite32_not_nan b h, Bool.false_eq_true, false_and,
    if_false, Out.bind]

theorem float64_reads (env : TextEnv) (hF : FloatOK env.float) (b : BitVec 64) (h : finite64 b ∨ isNaN64 b = true) :
    GoodText (env.float.fmt64 b) ∧ ∃ c, ReadsAs env .float64 (env.float.fmt64 b) c ∧ SameValue (.f64 b) c := by
  rcases h with h | h
  · have hs := hF.shape64 b h
    obtain ⟨g1, g2, g3, g4⟩ := decimal_good _ hs
    refine ⟨goodText_visible g1 g2 g3, .f64 b, fun H a rest hr => ?_, .inl rfl⟩
    simp only [readCell, ColType.intKind?, readFloat64, scanFloat_decimal _ _ hs hr, hF.back64 b h, finite64_not_nan b h, Bool.false_eq_true, false_and,
      if_false, Out.bind]
  · obtain ⟨y, hy, hyn⟩ := hF.nanBack64
    rw [hF.nan64 b h]
    refine ⟨goodText_visible (by decide) (by decide) (by decide), .f64 y, fun H a rest hr => ?_, .inr ⟨h, y, rfl, hyn⟩⟩
    simp only [readCell, ColType.intKind?, readFloat64, scanFloat_nan, hy, hyn, ne_eq, not_true_eq_false, and_false, if_false, Out.bind]

theorem float32_reads (env : TextEnv) (hF : FloatOK env.float) (b : BitVec 32) (h : finite32 b ∨ isNaN32 b = true) :
    GoodText (env.float.fmt32 b) ∧ ∃ c, ReadsAs env .float32 (env.float.fmt32 b) c ∧ SameValue (.f32 b) c := by
  rcases h with h | h
  · have hs := hF.shape32 b h
    obtain ⟨g1, g2, g3, g4⟩ := decimal_good _ hs
    refine ⟨goodText_visible g1 g2 g3, .f32 b, fun H a rest hr => ?_, .inl rfl⟩
    simp only [readCell, ColType.intKind?, readFloat32, scanFloat_decimal _ _ hs hr, hF.back32 b h, finite32_not_nan b h, Bool.false_eq_true, false_and,
      if_false, Out.bind]
  · obtain ⟨y, hy, hyn⟩ := hF.nanBack32
    rw [hF.nan32 b h]
    refine ⟨goodText_visible (by decide) (by decide) (by decide), .f32 y, fun H a rest hr => ?_, .inr ⟨h, y, rfl, hyn⟩⟩
    simp only [readCell, ColType.intKind?, readFloat32, scanFloat_nan, hy, hyn, ne_eq, not_true_eq_false, and_false, if_false, Out.bind]

/-! ### Slices -/

theorem parseUint_byte (x : UInt8) : parseUint (fmtNat x.toNat) 8 = .ok x.toNat := by
  have := u8_all (fun x => decide (parseUint (fmtNat x.toNat) 8 = .ok x.toNat)) (by decide +kernel) x
  simpa using this

theorem splitEach_join (t : GoStr) (ts : List GoStr) (h : ∀ x ∈ t :: ts, ∀ c ∈ x, isWhite c = false) : splitEach (joinSep [32] (t :: ts)) = t :: ts := by
  have happ : ∀ (t rest p : GoStr) (ps : List GoStr), (∀ c ∈ t, isWhite c = false) → splitEach rest = p :: ps → splitEach (t ++ rest) = (t ++ p) :: ps := by
    intro t rest p ps ht hs
    induction t with
    | nil => exact hs
    | cons c cs ih =>
      rw [List.cons_append, splitEach, if_neg (by simp [ht c (by simp)]), ih fun x hx => ht x (by simp [hx])]
      rfl
  induction ts generalizing t with
  | nil =>
    have := happ t [] [] [] (h t (by simp)) rfl
    simpa [joinSep] using this
  | cons t' ts ih =>
    have h1 := ih t' fun x hx => h x (by simp only [List.mem_cons] at hx ⊢; exact .inr hx)
    have h2 : splitEach (32 :: joinSep [32] (t' :: ts)) = [] :: t' :: ts := by
      rw [splitEach, if_pos (by decide), h1]
    have := happ t _ _ _ (h t (by simp)) h2
    rw [List.append_nil] at this
    simp only [joinSep, List.append_assoc, List.cons_append, List.nil_append]
    exact this

theorem parseBytes_fmt (b : List UInt8) : parseBytes (b.map fun x => fmtNat x.toNat) = .ok b := by
  induction b with
  | nil => rfl
  | cons x b ih =>
    simp only [List.map_cons, parseBytes, parseUint_byte, ih, Out.bind]
    simp

theorem joinSep_chars (b : List UInt8) : ∀ c ∈ joinSep [32] (b.map fun x => fmtNat x.toNat), c = 32 ∨ isDec c = true := by
  induction b with
  | nil => simp [joinSep]
  | cons x b ih =>
    cases b with
    | nil =>
      intro c hc
      exact .inr (fmtNat_visible _ c hc)
    | cons y b =>
      intro c hc
      simp only [List.map_cons, joinSep, List.mem_append, List.mem_singleton] at hc
      rcases hc with (hc | rfl) | hc
      · exact .inr (fmtNat_visible _ c hc)
      · exact .inl rfl
      · exact ih c hc

theorem readBytes_fmt (b : Option (List UInt8)) (rest : GoStr) : readBytes (fmtBytes b ++ rest) = .ok (b.getD [], rest) := by
  have hc := joinSep_chars (b.getD [])
  have h93 : ∀ c ∈ joinSep [32] ((b.getD []).map fun x => fmtNat x.toNat), decide (c ≠ 93) = true := by
    intro c hm
    rcases hc c hm with rfl | h
    · decide
    · simpa using (isDec_visible c h).2.2.2
  unfold readBytes fmtBytes
  simp only [List.cons_append, List.append_assoc, List.nil_append]
  rw [List.takeWhile_append_of_pos h93, List.dropWhile_append_of_pos h93]
  simp only [List.takeWhile_cons, List.dropWhile_cons, ne_eq, not_true_eq_false, decide_false, Bool.false_eq_true, if_false, List.append_nil]
  cases hb : b.getD [] with
  | nil => rfl
  | cons x xs =>
    have hl : (joinSep [32] ((x :: xs).map fun x => fmtNat x.toNat)).length ≠ 0 := by
      have := fmtNat_ne_nil x.toNat
      cases xs <;> simp [joinSep, this]
    rw [if_neg hl]
    have : splitEach (joinSep [32] ((x :: xs).map fun x => fmtNat x.toNat)) = (x :: xs).map fun x => fmtNat x.toNat := by
      refine splitEach_join _ _ fun y hy c hcy => ?_
      have : y ∈ (x :: xs).map fun x => fmtNat x.toNat := hy
      obtain ⟨z, _, rfl⟩ := List.mem_map.1 this
      exact (isDec_visible c (fmtNat_visible _ c hcy)).2.2.1
    rw [this, parseBytes_fmt]
    rfl

theorem bytes_good (b : Option (List UInt8)) : GoodText (fmtBytes b) := by
  refine goodText_quoted 91 (.inr (.inr rfl)) 93 (by decide) _ fun hm => ?_
  rcases joinSep_chars _ 10 hm with h | h
  · exact absurd h (by decide)
  · exact absurd h (by decide)

/-- Every cell of a column that is neither of type `*Table` nor `time.Time` is read back. -/
theorem cellText_reads (P : PrintEnv) (hF : FloatOK P.text.float) (H : Heap) {ty : ColType} {c : Cell Addr} (hty : c.HasType ty) (hsafe : TextSafe ty c)
    (h1 : ty ≠ .table) (h2 : ty ≠ .time) :
    ∃ s c', cellText P H ty c = .ok s ∧ GoodText s ∧ ReadsAs P.text ty s c' ∧ SameValue c c' := by
  cases hk : ty.intKind? with
  | some k =>
    have : ∃ v, c = .int k v ∧ k.lo ≤ v ∧ v ≤ k.hi := by
      cases ty <;> simp only [ColType.intKind?, Option.some.injEq, reduceCtorEq] at hk <;> subst hk <;>
        cases c <;> simp only [Cell.HasType] at hty <;> rename_i k' v <;> cases k' <;> simp only [Cell.HasType] at hty <;>
        exact ⟨v, rfl, by simpa [IntKind.lo, IntKind.hi, IntKind.signed, IntKind.bits] using hty⟩
    obtain ⟨v, rfl, hlo, hhi⟩ := this
    obtain ⟨g, r⟩ := int_reads P.text hk v hlo hhi
    refine ⟨fmtInt v, .int k v, ?_, g, r, rfl⟩
    cases ty <;> simp only [ColType.intKind?, Option.some.injEq, reduceCtorEq] at hk <;> subst hk <;> rfl
  | none =>
    cases ty <;> simp only [ColType.intKind?, reduceCtorEq] at hk <;> cases c <;> simp only [Cell.HasType] at hty
    case none.bool.bool b => exact ⟨_, .bool b, rfl, (bool_reads P.text b).1, (bool_reads P.text b).2, rfl⟩
    case none.string.str s => exact ⟨_, .str s, rfl, (string_reads P.text _ s).1, (string_reads P.text _ s).2, rfl⟩
    case none.float32.f32 b =>
      obtain ⟨g, c, hr, hs⟩ := float32_reads P.text hF b hsafe
      exact ⟨_, c, rfl, g, hr, hs⟩
    case none.float64.f64 b =>
      obtain ⟨g, c, hr, hs⟩ := float64_reads P.text hF b hsafe
      exact ⟨_, c, rfl, g, hr, hs⟩
    case none.byteSlice.bytes b =>
      refine ⟨_, .bytes (some (b.getD [])), rfl, bytes_good b, fun H a rest _ => ?_, ⟨_, rfl, by simp⟩⟩
      simp only [readCell, ColType.intKind?, readBytes_fmt, Out.bind]
    case none.uint8Slice.bytes b =>
      refine ⟨_, .bytes (some (b.getD [])), rfl, bytes_good b, fun H a rest _ => ?_, ⟨_, rfl, by simp⟩⟩
      simp only [readCell, ColType.intKind?, readBytes_fmt, Out.bind]
    case none.rune.int k v =>
      cases k <;> simp only [Cell.HasType] at hty
      obtain ⟨h0, hv⟩ := hsafe rfl
      exact ⟨_, .int .int32 v, rfl, (rune_reads P.text _ v h0 hv).1, (rune_reads P.text _ v h0 hv).2, rfl⟩
    all_goals first | exact absurd rfl h1 | exact absurd rfl h2

end Verif
