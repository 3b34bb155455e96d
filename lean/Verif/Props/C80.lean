import Verif.Lemmas.Aligned
import Verif.Props.C75

/-!
# C80 The text of a table is there, and its columns line up
-/

namespace Verif
open Table

/-- **C80**, the columns line up.  For every valid table with columns that is written as rows (not as a struct): if its integers are at most 2^53 in magnitude, then every column has in all
lines of `String()` the same width and the same place, numbers end and other values begin at the same place, and so do the points of floats.
What is missing is integers above 2^53, for which it is false (`C80_tooWide`). -/
theorem C80_aligned_partial (P : PrintEnv) (hP : P.IsGo) (H : Heap) (t : Table Addr) (hw : WF t) (hcols : t.colNames ≠ [])
    (hshape : t.isStructShape = false ∨ 1 < t.rows.length) (hint : ∀ row ∈ t.rows, ∀ k v, Cell.int k v ∈ row → v.natAbs ≤ 2 ^ 53) :
    ∃ s, stringPadded P H t = .ok s ∧ AlignedText P H t s := by
  refine stringPadded_aligned P hP H hw hcols hint ?_
  rintro ⟨h1, h2⟩
  rcases hshape with h | h
  · simp [h] at h1
  · omega

/-- The place where column `i` begins. -/
def columnStart (width : Nat → Nat) (i : Nat) : Nat := ((List.range i).map fun j => width j + 1).sum

theorem joinSep_at (fields : List GoStr) (width : Nat → Nat) (i : Nat) (field : GoStr) (hi : fields[i]? = some field) (k : Nat)
    (h : ∀ j f, j < i → fields[j]? = some f → codePoints f = width (k + j)) :
    ∃ before after, joinSep [32] fields = before ++ field ++ after ∧ codePoints before = ((List.range i).map fun j => width (k + j) + 1).sum := by
  induction fields generalizing i k with
  | nil => simp at hi
  | cons f fields ih =>
    cases i with
    | zero =>
      simp only [List.getElem?_cons_zero, Option.some.injEq] at hi
      subst hi
      cases fields with
      | nil => exact ⟨[], [], by simp [joinSep], rfl⟩
      | cons g gs => exact ⟨[], [32] ++ joinSep [32] (g :: gs), by simp [joinSep], rfl⟩
    | succ i =>
      rw [List.getElem?_cons_succ] at hi
      obtain ⟨before, after, h1, h2⟩ := ih i hi (k + 1) fun j g hj hg => by
        have := h (j + 1) g (by omega) (by simpa using hg)
        rwa [show k + (j + 1) = k + 1 + j by omega] at this
      cases fields with
      | nil => simp at hi
      | cons g gs =>
        refine ⟨f ++ 32 :: before, after, ?_, ?_⟩
        · rw [joinSep, h1]
          · simp
          · simp
        · have h0 := h 0 f (by omega) rfl
          rw [Nat.add_zero] at h0
          rw [codePoints_space, h2, h0, List.range_succ_eq_map, List.map_cons, List.sum_cons, List.map_map, Nat.add_zero k]
          have : (fun j => width (k + j) + 1) ∘ Nat.succ = fun j => width (k + 1 + j) + 1 := by
            funext j
            simp only [Function.comp]
            rw [show k + j.succ = k + 1 + j by omega]
          rw [this]

/-- **C80**, where columns begin: in an aligned text, column `i` begins in every line at the same code point, given by the widths of the columns before it. -/
theorem C80_start (P : PrintEnv) (H : Heap) (t : Table Addr) (s : GoStr) (hlen : t.colTypes.length = t.colNames.length) (h : AlignedText P H t s) :
    ∃ (width : Nat → Nat) (lines : List GoStr), s = 91 :: t.name ++ gs! "]\n" ++ (lines.map fun l => l ++ [10]).flatten ∧ lines.length = t.rows.length + 2 ∧
      ∀ line ∈ lines, ∀ i, i < t.colNames.length → ∃ n before field after, line ++ List.replicate n 32 = before ++ field ++ after ∧
        codePoints before = columnStart width i ∧ codePoints field = width i := by
  obtain ⟨width, prec, lines, h1, h2, h3⟩ := h
  refine ⟨width, lines, h1, h2, fun line hl i hi => ?_⟩
  obtain ⟨r, hr⟩ := List.getElem?_of_mem hl
  obtain ⟨fields, ⟨⟨n, l1⟩, _⟩, l2, l3⟩ := h3 r line hr
  have key : ∀ j f, j < t.colNames.length → fields[j]? = some f → codePoints f = width j := by
    intro j f hj hf
    obtain ⟨text, field, g1, g2, _⟩ := l3 j _ (List.getElem?_eq_getElem (by rw [hlen]; exact hj))
    rw [hf] at g1
    cases g1
    exact g2.1
  have hf : fields[i]? = some fields[i] := List.getElem?_eq_getElem (by rw [l2]; exact hi)
  obtain ⟨before, after, b1, b2⟩ := joinSep_at fields width i _ hf 0 fun j f hj hf => by rw [Nat.zero_add]; exact key j f (by omega) hf
  refine ⟨n, before, fields[i], after, by rw [l1, b1], ?_, key i _ hi hf⟩
  rw [b2]
  unfold columnStart
  simp only [Nat.zero_add]

/-- A column of integers and a column of booleans. -/
def Ex.wide (v : Int) : Table Addr :=
  { (newNilTable : Table Addr) with
    name := gs! "T", isNilTable := false, colNames := [gs! "n", gs! "b"], colTypes := [.int64, .bool], colMap := [(gs! "n", 0), (gs! "b", 1)],
    rows := [[.int .int64 v, .bool true], [.int .int64 1, .bool true]] }

theorem Ex.wide_wf (v : Int) (h : IntKind.int64.lo ≤ v ∧ v ≤ IntKind.int64.hi) : WF (Ex.wide v) := by
  refine ⟨by simp [Ex.wide], (by decide : ∀ n ∈ [gs! "n", gs! "b"], isValidColName n = true), rfl, by simp [Ex.wide], ?_, ?_, by simp [Ex.wide],
    fun _ => (by decide : isValidTableName (gs! "T") = true), by simp [Ex.wide, newNilTable]⟩
  · intro n i
    by_cases h : i < 2
    · simp only [Ex.wide, GoMap.get?]
      match i, h with
      | 0, _ => grind
      | 1, _ => grind
    · have : (Ex.wide v).colNames[i]? = none := List.getElem?_eq_none (by simp [Ex.wide]; omega)
      rw [this]
      simp only [Ex.wide, GoMap.get?]
      grind
  · intro row hr
    simp only [Ex.wide, List.mem_cons, List.not_mem_nil, or_false] at hr
    rcases hr with rfl | rfl
    all_goals
      refine ⟨by simp [Ex.wide], fun i ty c h1 h2 => ?_⟩
      simp only [Ex.wide] at h1
      match i with
      | 0 | 1 =>
        simp at h1 h2
        subst h1 h2
        first | exact trivial | exact h | exact ⟨by decide, by decide⟩
      | i + 2 => simp at h1

/-- **C80**, integers above 2^53: 9999999999999999 has sixteen digits and becomes 10000000000000000, which has seventeen, so that the rest of its line is moved. -/
theorem C80_tooWide : ∃ s, WF (Ex.wide 9999999999999999) ∧ stringPadded Ex.env [] (Ex.wide 9999999999999999) = .ok s ∧
    s = gs! "[T]\n               n b\n           int64 bool\n10000000000000000 true\n               1 true\n" :=
  ⟨_, Ex.wide_wf _ (by decide), by decide +kernel, rfl⟩

/-- With a smaller number the columns line up. -/
example : ∃ s, stringPadded Ex.env [] (Ex.wide 999999999999999) = .ok s ∧ AlignedText Ex.env [] (Ex.wide 999999999999999) s :=
  C80_aligned_partial Ex.env Ex.env_go [] _ (Ex.wide_wf _ (by decide)) (by simp [Ex.wide]) (.inl rfl) (by
    intro row hr k v hv
    simp only [Ex.wide, List.mem_cons, List.not_mem_nil, or_false] at hr
    rcases hr with rfl | rfl <;> simp at hv <;> rw [hv.2] <;> decide)

example : stringPadded Ex.env [] (Ex.wide 999999999999999) = .ok (gs! "[T]\n              n b\n          int64 bool\n999999999999999 true\n              1 true\n") := by
  decide +kernel

/-- Floats: the points line up, and zeros at the end are left out. -/
def Ex.points : Table Addr :=
  { (newNilTable : Table Addr) with
    name := gs! "T", isNilTable := false, colNames := [gs! "f", gs! "s"], colTypes := [.float64, .string], colMap := [(gs! "f", 0), (gs! "s", 1)],
    rows := [[.f64 0x3FF8000000000000#64, .str (gs! "é")], [.f64 0xC059000000000000#64, .str []], [.f64 0x3F90000000000000#64, .str (gs! "a b")], [.f64 0x7FF0000000000000#64, .str []]] }

example : stringPadded Ex.env [] Ex.points = .ok (gs! "[T]\n          f s\n    float64 string\n   1.5      \"é\"\n-100.0      \"\"\n   0.015625 \"a b\"\n       +Inf \"\"\n") := by decide +kernel

/-! ## There is a text -/

theorem cellOK_go (P : PrintEnv) (hP : P.IsGo) (H : Heap) {ty : ColType} {c : Cell Addr} (prec : Nat) (hc : c.HasType ty) : CellOK P H ty prec c := by
  refine ⟨cellText_ok P H hc, fun hn => ?_⟩
  cases c with
  | int k v => rw [numericText_int]; rfl
  | f32 b =>
    cases ty <;> first | exact (hc : False).elim | skip
    have e : numericText P .float32 (.f32 b) prec = (goFloat.parse32 (goFloat.fmt32 b)).map fun x => padTrailingZeros (goFloat.prec32 x prec) := by rw [← hP.float]; rfl
    by_cases hf : finite32 b
    · rw [e, floatOK_go.back32 b hf]; rfl
    · rw [e, (nonfinite32 hf prec).1]; rfl
  | f64 b =>
    cases ty <;> first | exact (hc : False).elim | skip
    have e : numericText P .float64 (.f64 b) prec = (goFloat.parse64 (goFloat.fmt64 b)).map fun x => padTrailingZeros (goFloat.prec64 x prec) := by rw [← hP.float]; rfl
    by_cases hf : finite64 b
    · rw [e, floatOK_go.back64 b hf]; rfl
    · rw [e, (nonfinite64 hf prec).1]; rfl
  | _ => cases ty <;> first | exact (hc : False).elim | exact absurd hn (by decide)

/-- **C80**, `String()` answers every valid table with a text that is not empty. -/
theorem C80_string (P : PrintEnv) (hP : P.IsGo) (H : Heap) (t : Table Addr) (hw : WF t) : ∃ s, stringPadded P H t = .ok s ∧ s ≠ [] := by
  have hcol : ∀ i ty, t.colTypes[i]? = some ty → ColOK P H ty (0 + i) t.rows := by
    intro i ty hi row hr
    have hrow := hw.rowsOK row hr
    have hlt : i < row.length := by rw [hrow.1]; exact (List.getElem?_eq_some_iff.1 hi).1
    have hc : row[i]? = some row[i] := List.getElem?_eq_getElem hlt
    rw [Nat.zero_add]
    exact ⟨row[i], hc, cellOK_go P hP H _ (hrow.2 i ty _ hi hc)⟩
  rw [stringPadded, printCols_eq P H t.rows t.colNames t.colTypes 0 hcol]
  simp only [Out.bind]
  split
  · exact printStruct_ok P H hw
  · exact ⟨_, rfl, by simp⟩

/-- The types for which `StringUnpadded` has no text. -/
def hasNoText : ColType → Bool
  | .byte | .byteSlice | .uint8Slice | .time => true
  | _ => false

theorem hasNoText_eq (ty : ColType) : hasNoText ty = !ty.unpadded := by cases ty <;> rfl

theorem rowUnpadded_ok (P : PrintEnv) (H : Heap) {types : List ColType} {row : List (Cell Addr)} (h : RowOK types row) :
    ∃ o, rowUnpadded P H types row = .ok o ∧ (o = none ↔ ∃ ty ∈ types, hasNoText ty = true) := by
  induction types generalizing row with
  | nil => exact ⟨some [], rfl, by simp⟩
  | cons ty types ih =>
    cases row with
    | nil => have := h.1; simp at this
    | cons c row =>
      obtain ⟨o, h1, h2⟩ := ih h.split.2
      obtain ⟨s, hs⟩ := cellText_ok P H h.split.1
      simp only [rowUnpadded]
      by_cases hu : ty.unpadded = false
      · rw [if_pos hu]
        exact ⟨none, rfl, by simp [hasNoText_eq, hu]⟩
      · rw [if_neg hu, hs, h1]
        refine ⟨o.map fun ss => s :: ss, rfl, ?_⟩
        have : hasNoText ty = false := by rw [hasNoText_eq]; simpa using hu
        rw [Option.map_eq_none_iff, h2]
        simp [this]

theorem rowsUnpadded_ok (P : PrintEnv) (H : Heap) {types : List ColType} {rows : List (List (Cell Addr))} (h : ∀ row ∈ rows, RowOK types row) :
    ∃ o, rowsUnpadded P H types rows = .ok o ∧ (o = none ↔ rows ≠ [] ∧ ∃ ty ∈ types, hasNoText ty = true) := by
  induction rows with
  | nil => exact ⟨some [], rfl, by simp⟩
  | cons row rows ih =>
    obtain ⟨o, h1, h2⟩ := ih fun x hx => h x (by simp [hx])
    obtain ⟨r, r1, r2⟩ := rowUnpadded_ok P H (h row (by simp))
    simp only [rowsUnpadded, r1, Out.bind]
    cases r with
    | none => exact ⟨none, rfl, by simp [r2.1 rfl]⟩
    | some r =>
      have hno : ¬ ∃ ty ∈ types, hasNoText ty = true := fun hx => nomatch r2.2 hx
      simp only [h1, Out.bind]
      refine ⟨_, rfl, ?_⟩
      rw [Option.map_eq_none_iff, h2]
      simp [hno]

/-- **C80**, `StringUnpadded()` answers every valid table, but with an empty text if the table has a row and a column of bytes, byte slices or times (and is not written as a struct). -/
theorem C80_unpadded (P : PrintEnv) (H : Heap) (t : Table Addr) (hw : WF t) : ∃ s, stringUnpadded P H t = .ok s ∧
    (s = [] ↔ t.rows ≠ [] ∧ (∃ ty ∈ t.colTypes, hasNoText ty = true) ∧ ¬ (t.isStructShape = true ∧ t.rows.length ≤ 1)) := by
  unfold stringUnpadded
  split
  · next hs =>
    obtain ⟨s, h1, h2⟩ := printStruct_ok P H hw
    exact ⟨s, h1, by simp [h2, hs]⟩
  · next hs =>
    obtain ⟨o, h1, h2⟩ := rowsUnpadded_ok P H hw.rowsOK
    rw [h1]
    simp only [Out.bind]
    cases o with
    | none => exact ⟨[], rfl, fun _ => ⟨(h2.1 rfl).1, (h2.1 rfl).2, hs⟩, fun _ => rfl⟩
    | some rows =>
      refine ⟨_, rfl, ?_⟩
      constructor
      · intro e; simp at e
      · rintro ⟨a, b, _⟩; exact nomatch h2.2 ⟨a, b⟩

/-- A table with a time has a padded text but no unpadded one. -/
example : stringUnpadded Ex.env [] (Ex.timeTable Ex.time75) = .ok [] ∧ ∃ s, stringPadded Ex.env [] (Ex.timeTable Ex.time75) = .ok s ∧ s ≠ [] :=
  ⟨by decide +kernel, C80_string Ex.env Ex.env_go [] _ (Ex.wf_timeTable _)⟩

end Verif
