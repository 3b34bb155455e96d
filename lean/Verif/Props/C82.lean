import Verif.Lemmas.ValuesText
import Verif.Lemmas.ValuesNear
import Verif.Props.C36

/-!
# C82: rows of table text are read by a grammar

`Spec/Values.lean` has the grammar of values: `RowsRead env a t H lines H'` says that the lines are rows of values of the column types of the table `t`, which is at the
address `a`, and that the memory becomes `H'` when they are appended to it.
-/

namespace Verif
open Table

/-- The text of a table: its name, the names and the types of its columns, and the lines of its rows, which may have spaces before and after them. -/
def tableText (name : GoStr) (names : List GoStr) (types : List ColType) (lines : List (Nat × GoStr × Nat)) : GoStr :=
  gs! "[" ++ name ++ gs! "]\n" ++ joinSep (gs! " ") names ++ gs! "\n" ++ joinSep (gs! " ") (types.map ColType.name) ++ gs! "\n" ++
    (lines.map fun x => List.replicate x.1 32 ++ x.2.1 ++ List.replicate x.2.2 32 ++ gs! "\n").flatten

/-- **C82**: whatever the lines are, the table is read if and only if all lines are rows by the grammar, and then it has these rows; otherwise there is an error and not a panic.
(`t0` is the table without rows.  `NanOK` says that the letters of "nan" are read as a NaN, see `C82_floats`.) -/
theorem C82_rows (env : TextEnv) (hF : NanOK env.float) (H0 : Heap) (name : GoStr) (hname : isValidTableName name = true) (hascii : Ascii name)
    (names : List GoStr) (types : List ColType) (hlen : types.length = names.length) (hne : names ≠ []) (hv : ∀ n ∈ names, isValidColName n = true) (hnd : names.Nodup) :
    ∃ t0 : Table Addr, t0.name = name ∧ t0.colNames = names ∧ t0.colTypes = types ∧ t0.rows = [] ∧ t0.isStructShape = false ∧ t0.isNilTable = false ∧ t0.sortKeys = [] ∧
      ∀ lines, (∀ x ∈ lines, PlainLine x.2.1) →
        (∀ H' a, newTableFromString env H0 (tableText name names types lines) = .ok (H', a) ↔
          a = H0.length ∧ RowsRead env a t0 (H0 ++ [t0]) (lines.map fun x => x.2.1) H') ∧
        newTableFromString env H0 (tableText name names types lines) ≠ .panic := by
  have hty : types.map ColType.name ≠ [] := by
    intro e
    apply hne
    apply List.eq_nil_of_length_eq_zero
    rw [← hlen]
    simpa using e
  obtain ⟨hn1, hn2⟩ := lineToks_names (lineToks_join hne) hv
  obtain ⟨ht1, ht2⟩ := lineToks_types (lineToks_join hty)
  have htl : TableLines env name names types [] [headerLine name, joinSep [32] names, joinSep [32] (types.map ColType.name)] :=
    .cols hn1 ht1 (by simp [Pointwise])
  obtain ⟨p, t0, r1, r2, r3, r4, r5, r6, r7, r8, r9, r10, r11, r12⟩ := runTableState env htl hname hascii hlen hv hnd (startState H0) rfl
    (by simp [startState, newTableSet]) (by simp [startState, newTableSet, setNames])
  obtain ⟨q1, q2, q3, q4⟩ := r12 hne
  refine ⟨t0, r5, r6, r7, r8, r9, r10, r11, fun lines hlines => ?_⟩
  have r2 : p.heap = H0 ++ [t0] := r2
  have q2 : p.table = H0.length := q2
  obtain ⟨i1, i2, i3⟩ := runRowLines hF H0.length lines hlines p t0 (by rw [q3, r7, hlen]) (by rw [r2]; simp) q2 (by rw [q4, r7]) q1
  have htext : tableText name names types lines = unlines ([headerLine name, joinSep [32] names, joinSep [32] (types.map ColType.name)] ++ rowLines lines) := by
    simp only [tableText, unlines, headerLine, rowLines, List.map_append, List.flatten_append, List.map_map, Function.comp_def, sp]
    simp
  have hnl : ∀ l ∈ [headerLine name, joinSep [32] names, joinSep [32] (types.map ColType.name)] ++ rowLines lines, 10 ∉ l := by
    intro l hl
    simp only [List.cons_append, List.nil_append, List.mem_cons, rowLines, List.mem_map] at hl
    rcases hl with rfl | rfl | rfl | ⟨x, hx, rfl⟩
    · have hb := isValidName_bytes (isValidTableName_name hname)
      intro hm
      simp only [headerLine, List.cons_append, List.mem_cons, List.mem_append, List.not_mem_nil, or_false] at hm
      rcases hm with hm | hm | hm
      · revert hm; decide
      · exact (nameByte_facts 10 (hb.2 10 hm)).2.2.1 rfl
      · revert hm; decide
    · exact hn2
    · exact ht2
    · simp only [List.mem_append, not_or]
      exact ⟨⟨sp_noNewline _, (hlines x hx).1⟩, sp_noNewline _⟩
  have hset : newTableSetFromString env H0 (tableText name names types lines) =
      ((runLines env p (rowLines lines)).bind fun p' => parseLines env p' [[]]).bind fun p' => .ok (p'.heap, p'.set) := by
    have hs : splitLines (tableText name names types lines) =
        ([headerLine name, joinSep [32] names, joinSep [32] (types.map ColType.name)] ++ rowLines lines) ++ [[]] := by
      have := splitLines_lines _ [] hnl
      rw [List.append_nil] at this
      rw [htext]
      exact this
    rw [newTableSetFromString, hs, parseLines_append _ _ _ _ (by simp), runLines_append, r1]
    rfl
  have hset' : p.set = { newTableSet [] with tables := [H0.length] } := r3
  have hfinal : ∀ H', ((.ok { p with heap := H' } : Out PState).bind fun p' => parseLines env p' [[]]).bind (fun p' => (.ok (p'.heap, p'.set) : Out (Heap × TableSet))) =
      .ok (H', p.set) := by
    intro H'
    have ht : trimSpace [] = [] := rfl
    simp [Out.bind, parseLines, ht, step, q1]
  have hone : ∀ H' : Heap, ((.ok (H', p.set) : Out (Heap × TableSet)).bind fun (H', set) =>
      if set.tableCount ≠ 1 then .err .other else (set.getTableByTableIndex 0).bind fun a => .ok (H', a)) = .ok (H', H0.length) := by
    intro H'
    simp [hset', TableSet.tableCount, TableSet.getTableByTableIndex, goGet?, newTableSet, Out.bind]
  rw [newTableFromString, hset]
  cases hr : runLines env p (rowLines lines) with
  | panic => exact absurd hr i3
  | err e =>
    simp only [Out.bind]
    refine ⟨fun H' a => ⟨fun h => by simp at h, ?_⟩, by simp⟩
    rintro ⟨rfl, h⟩
    rw [i2 H' (by rw [r2]; exact h)] at hr
    simp at hr
  | ok p' =>
    obtain ⟨e, hrows⟩ := i1 p' hr
    rw [e, hfinal, hone]
    refine ⟨fun H' a => ⟨fun h => ?_, ?_⟩, by simp⟩
    · simp only [Out.ok.injEq, Prod.mk.injEq] at h
      obtain ⟨rfl, rfl⟩ := h
      rw [r2] at hrows
      exact ⟨rfl, hrows⟩
    · rintro ⟨rfl, h⟩
      have := i2 H' (by rw [r2]; exact h)
      rw [hr] at this
      simp only [Out.ok.injEq] at this
      rw [this]

/-- What `C82_rows` needs of the conversion of floats is true of strconv's, as modelled in `Verif.Go.FloatConv`. -/
theorem C82_floats : NanOK goFloat := NanOK.goFloat

/-- **C82**, the value of a number in a column of type float64: the nearest float, with the sign.  `e` is the exponent that is written, and `k` is the number of digits after the point.
There is no value if the nearest float were infinite.  (Exponents of six or more digits are cut by strconv.) -/
theorem C82_float64 {s m x : GoStr} {neg : Bool} {n k : Nat} {e : Int} (hs : SignText s neg) (hm : MantissaText m n k) (hx : ExponentText x e) (he : e.natAbs < 100000)
    (b : BitVec 64) : goFloat.parse64 (s ++ m ++ x) = some b ↔
      ∃ v, v < 2047 * 2 ^ 52 ∧ b = BitVec.ofNat 64 (v + if neg then 2 ^ 63 else 0) ∧
        NearestFloat .f64 (n * 10 ^ (e - k).toNat * 2 ^ 1074) (10 ^ (k - e).toNat) v := by
  have hp := FloatFmt.parse_lit .f64 hs hm hx he
  have hk : -(e - (k : Int)) = k - e := by omega
  simp only [goFloat, hp, Option.map_map, Option.map_eq_some_iff, Function.comp_apply, FloatFmt.ofDecimal_iff, hk]
  constructor
  · rintro ⟨v, ⟨h1, h2⟩, h3⟩
    exact ⟨v, h1, h3.symm, h2⟩
  · rintro ⟨v, h1, h3, h2⟩
    exact ⟨v, ⟨h1, h2⟩, h3.symm⟩

/-- **C82**, the value of a number in a column of type float32. -/
theorem C82_float32 {s m x : GoStr} {neg : Bool} {n k : Nat} {e : Int} (hs : SignText s neg) (hm : MantissaText m n k) (hx : ExponentText x e) (he : e.natAbs < 100000)
    (b : BitVec 32) : goFloat.parse32 (s ++ m ++ x) = some b ↔
      ∃ v, v < 255 * 2 ^ 23 ∧ b = BitVec.ofNat 32 (v + if neg then 2 ^ 31 else 0) ∧
        NearestFloat .f32 (n * 10 ^ (e - k).toNat * 2 ^ 149) (10 ^ (k - e).toNat) v := by
  have hp := FloatFmt.parse_lit .f32 hs hm hx he
  have hk : -(e - (k : Int)) = k - e := by omega
  simp only [goFloat, hp, Option.map_map, Option.map_eq_some_iff, Function.comp_apply, FloatFmt.ofDecimal_iff, hk]
  constructor
  · rintro ⟨v, ⟨h1, h2⟩, h3⟩
    exact ⟨v, h1, h3.symm, h2⟩
  · rintro ⟨v, h1, h3, h2⟩
    exact ⟨v, ⟨h1, h2⟩, h3.symm⟩

/-! ## Nothing is ignored -/

/-- The text of one value, with nothing before or after it. -/
inductive ValueText : ColType → GoStr → Prop
  | int {ty k tok v} : ty.intKind? = some k → (if k.signed then IntLit tok v else ∃ n : Nat, v = n ∧ UintLit tok n) → ValueText ty tok
  | string {body s} : StringText body s → ValueText .string (34 :: body ++ [34])
  | bool {b : Bool} : ValueText .bool (if b then gs! "true" else gs! "false")
  | noBytes {ty} : ty = .byteSlice ∨ ty = .uint8Slice → ValueText ty (gs! "[]")
  | bytes {ty content vs} : ty = .byteSlice ∨ ty = .uint8Slice → BytesText content vs → ValueText ty (91 :: content ++ [93])
  | rune {body v} : RuneText body v → ValueText .rune (39 :: body ++ [39])
  | float {ty tok} : ty = .float32 ∨ ty = .float64 → IsFloatLit tok → ValueText ty tok
  | nan {ty} : ty = .float32 ∨ ty = .float64 → ValueText ty (gs! "NaN")
  | noTable : ValueText .table (gs! "[]")
  | table {n} : PlainName n → ValueText .table (91 :: n ++ [93])
  | time {tok} : TimeText tok → ValueText .time tok

/-- The line is the texts of values of the types, with spaces and tabs after each of them. -/
inductive LineOfValues : List ColType → GoStr → Prop
  | nil : LineOfValues [] []
  | cons {ty tys tok blanks more} : ValueText ty tok → (∀ b ∈ blanks, b = 32 ∨ b = 9) → LineOfValues tys more → LineOfValues (ty :: tys) (tok ++ blanks ++ more)

theorem CellReads.valueText {env : TextEnv} {a : Addr} {ty : ColType} {H : Heap} {l : GoStr} {H' : Heap} {c : Cell Addr} {rest : GoStr}
    (h : CellReads env a ty H l H' c rest) (hty : ty ≠ .rune ∧ ty ≠ .float32 ∧ ty ≠ .float64 ∧ ty ≠ .time) : ∃ tok, l = tok ++ rest ∧ ValueText ty tok := by
  cases h with
  | int hk h =>
    obtain ⟨tok, ht, hl, _⟩ := h
    exact ⟨tok, ht.1, .int hk hl⟩
  | @string _ body s rest h => exact ⟨34 :: body ++ [34], by simp, .string h⟩
  | bool h => exact ⟨_, rfl, .bool⟩
  | noBytes h => exact ⟨_, rfl, .noBytes h⟩
  | @bytes _ _ content vs rest h1 h2 => exact ⟨91 :: content ++ [93], by simp, .bytes h1 h2⟩
  | rune => exact absurd rfl hty.1
  | float32 => exact absurd rfl hty.2.1
  | float64 => exact absurd rfl hty.2.2.1
  | nan32 => exact absurd rfl hty.2.1
  | nan64 => exact absurd rfl hty.2.2.1
  | noTable => exact ⟨_, rfl, .noTable⟩
  | @table _ n rest h1 h2 => exact ⟨91 :: n ++ [93], by simp, .table h1⟩
  | time => exact absurd rfl hty.2.2.2

theorem RowReads.lineOfValues {env : TextEnv} {a : Addr} {tys : List ColType} {H : Heap} {l : GoStr} {H' : Heap} {cs : List (Cell Addr)}
    (h : RowReads env a tys H l H' cs) (hty : ∀ ty ∈ tys, ty ≠ .rune ∧ ty ≠ .float32 ∧ ty ≠ .float64 ∧ ty ≠ .time) : LineOfValues tys l := by
  induction h with
  | nil => exact .nil
  | cons hc hb _ _ ih =>
    obtain ⟨tok, e, hv⟩ := hc.valueText (hty _ (by simp))
    rw [e, ← List.append_assoc]
    exact .cons hv hb (ih fun ty h => hty ty (by simp [h]))

/-- **C82**, nothing of a row is ignored: in a table without columns of types rune, float32, float64 and time.Time, every line of a text that is read consists of texts of values, with spaces
and tabs after them.  Missing: the other types, see `C82_ignored`. -/
theorem C82_nothingIgnored_partial (env : TextEnv) (hF : NanOK env.float) (H0 : Heap) (name : GoStr) (hname : isValidTableName name = true) (hascii : Ascii name)
    (names : List GoStr) (types : List ColType) (hlen : types.length = names.length) (hne : names ≠ []) (hv : ∀ n ∈ names, isValidColName n = true) (hnd : names.Nodup)
    (hty : ∀ ty ∈ types, ty ≠ .rune ∧ ty ≠ .float32 ∧ ty ≠ .float64 ∧ ty ≠ .time) (lines : List (Nat × GoStr × Nat)) (hlines : ∀ x ∈ lines, PlainLine x.2.1)
    (H' : Heap) (a : Addr) (h : newTableFromString env H0 (tableText name names types lines) = .ok (H', a)) : ∀ x ∈ lines, LineOfValues types x.2.1 := by
  obtain ⟨t0, _, _, ht, _, _, _, _, hall⟩ := C82_rows env hF H0 name hname hascii names types hlen hne hv hnd
  obtain ⟨_, hrows⟩ := ((hall lines hlines).1 H' a).1 h
  have key : ∀ (ls : List GoStr) (t : Table Addr) (H : Heap), t.colTypes = types → RowsRead env a t H ls H' → ∀ l ∈ ls, LineOfValues types l := by
    intro ls
    induction ls with
    | nil => simp
    | cons l ls ih =>
      intro t H e hr l' hl'
      cases hr with
      | cons hrow hrest =>
        rcases List.mem_cons.1 hl' with rfl | hl'
        · rw [e] at hrow; exact hrow.lineOfValues hty
        · refine ih _ _ ?_ hrest l' hl'
          exact e
  intro x hx
  exact key _ t0 _ ht hrows x.2.1 (List.mem_map.2 ⟨x, hx, rfl⟩)

/-- The rows that are read from a text. -/
def Ex.rowsOf (s : GoStr) : Out (List (List (Cell Addr))) :=
  (newTableFromString Ex.env.text [] s).bind fun (H, a) => match H[a]? with
    | some t => .ok t.rows
    | none => .panic

/-- The claim is false of runes, NaNs and times: the text before them is ignored. -/
theorem C82_ignored :
    Ex.rowsOf (tableText (gs! "T") [gs! "r"] [.rune] [(0, gs! "oops'a'", 0)]) = .ok [[.int .int32 97]] ∧
    Ex.rowsOf (tableText (gs! "T") [gs! "f", gs! "i"] [.float64, .int] [(0, gs! "oops NaN 5", 0)]) = .ok [[.f64 0x7FF8000000000000#64, .int .int 5]] ∧
    Ex.rowsOf (tableText (gs! "T") [gs! "t"] [.time] [(0, gs! "12020-01-02T03:04:05Z", 0)]) = Ex.rowsOf (tableText (gs! "T") [gs! "t"] [.time] [(0, gs! "2020-01-02T03:04:05Z", 0)]) ∧
    ¬ LineOfValues [.rune] (gs! "oops'a'") := by
  refine ⟨by decide +kernel, by decide +kernel, by decide +kernel, fun h => ?_⟩
  generalize hl : gs! "oops'a'" = l at h
  generalize htys : [ColType.rune] = tys at h
  cases h with
  | nil => simp at htys
  | cons hv _ _ =>
    simp only [List.cons.injEq] at htys
    obtain ⟨rfl, rfl⟩ := htys
    generalize hty : ColType.rune = ty at hv
    cases hv with
    | int hk _ => subst hty; simp [ColType.intKind?] at hk
    | rune => simp at hl
    | float h => subst hty; simp at h
    | nan h => subst hty; simp at h
    | noBytes h => subst hty; simp at h
    | bytes h => subst hty; simp at h
    | _ => simp at hty

/-! ## Concrete cases -/

/-- A row with values of several types. -/
def Ex.valuesLine : GoStr := gs! "-7 \"a\\tb\" \t true [1 0x10] '\\u00e9' 1.5e-3 [] 2020-01-02T03:04:05.000000001+10:00"

example : PlainLine Ex.valuesLine := ⟨by decide, ⟨45, _, rfl, by decide, by decide, by decide⟩, 48, by decide, by decide, by decide⟩
set_option maxRecDepth 20000 in
example : Ex.rowsOf (tableText (gs! "T") [gs! "i", gs! "s", gs! "b", gs! "x", gs! "r", gs! "f", gs! "n", gs! "t"]
      [.int8, .string, .bool, .byteSlice, .rune, .float64, .table, .time] [(2, Ex.valuesLine, 1)]) =
    .ok [[.int .int8 (-7), .str (gs! "a\tb"), .bool true, .bytes (some [1, 16]), .int .int32 233, .f64 0x3F589374BC6A7EFA#64, .tbl (some 1),
      .time { sec := 1577898245, nsec := 1, off := 36000 }]] := by decide +kernel
example : RowReads Ex.env.text 0 [.string, .bool] [] (gs! "\"a\\n\"\t false") [] [.str (gs! "a\n"), .bool false] :=
  .cons (blanks := gs! "\t ") (more := gs! "false") (.string (body := gs! "a\\n") (s := gs! "a\n") (by
    exact .char (t := gs! "a") (more := gs! "\\n") (.ascii (by decide) (by decide) (by decide))
      (.char (t := gs! "\\n") (more := []) (v := 10) (.escape (by decide)) .nil))) (by decide) (by simp)
    (.cons (blanks := []) (more := []) (.bool (b := false) (by simp)) (by simp) (by simp) .nil)
example : Ex.rowsOf (tableText (gs! "T") [gs! "i"] [.uint8] [(0, gs! "256", 0)]) = .err .badRange ∧
    Ex.rowsOf (tableText (gs! "T") [gs! "s"] [.string] [(0, gs! "\"a\\q\"", 0)]) = .err .syntaxErr ∧
    Ex.rowsOf (tableText (gs! "T") [gs! "b"] [.bool] [(0, gs! "trueish", 0)]) = .err .syntaxErr := by decide +kernel
example : SignText (gs! "-") true ∧ MantissaText (gs! "12" ++ 46 :: gs! "5") 125 1 ∧ ExponentText (101 :: 45 :: gs! "2") (-2) ∧
    goFloat.parse64 (gs! "-" ++ gs! "12.5" ++ gs! "e-2") = some 0xBFC0000000000000#64 ∧ goFloat.parse32 (gs! "-" ++ gs! "12.5" ++ gs! "e-2") = some 0xBE000000#32 :=
  ⟨.minus, .point (ds := gs! "12") (fs := gs! "5") ⟨by simp, by decide⟩, .minus (c := 101) (ds := gs! "2") (.inl rfl) ⟨by simp, by decide⟩, by decide +kernel, by decide +kernel⟩

end Verif
