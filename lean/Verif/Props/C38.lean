import Verif.Lemmas.PrintPadded
import Verif.Props.C36

/-!
# C38: integers in the padded text

`stringPadded P H t` is `t.String()` with memory `H`, and `newTableFromString P.text H0 s` is `NewTableFromString(s)` with memory `H0`.  `String` converts the cells of integer columns to
float64 and back before it writes them.
-/

namespace Verif
open Table

/-- **C38**, as far as it holds: if no integer exceeds 2^53 in magnitude, and no float is one of the powers of two of `BadPower64` and `BadPower32`, the text of a table without columns of
tables is read back as a table with the same name, columns, types and rows.  Missing for the full claim: greater integers, for which it is false (`C38_changed`, `C38_refused`).
Times are as in C75.  The environment is arbitrary but for the conversion of floats and times, which is Go's. -/
theorem C38_roundTrip_partial (P : PrintEnv) (hP : P.IsGo) (H H0 : Heap) (t : Table Addr) (h : Writable paddedType t)
    (hint : ∀ row ∈ t.rows, ∀ c ∈ row, PadSafe c) (hshape : t.isStructShape = false ∨ 1 < t.rows.length) :
    ∃ s t', stringPadded P H t = .ok s ∧ newTableFromString P.text H0 s = .ok (H0 ++ [t'], H0.length) ∧ TextSame t t' := by
  obtain ⟨ls, rows', h1, h2, h3, h4, h5⟩ := stringPadded_lines P hP H h hint hshape
  let b : Block := { name := t.name, names := t.colNames, types := t.colTypes, rows := rows', lines := ls }
  have hb : b.OK P.text := ⟨h2, h.wf.nameValid h.notNil, h.ascii, h.wf.typesLen, h.wf.namesValid, h.wf.namesNodup, h4, h5⟩
  obtain ⟨ts, e, hts⟩ := parseBlocks P.text H0 [b] (by simpa using hb) (by simp)
  match ts, hts with
  | [t'], hts =>
    refine ⟨_, t', h1, ?_, hts.1.name, hts.1.colNames, hts.1.colTypes, ?_⟩
    · have e : newTableSetFromString P.text H0 (unlines ls) = _ := e
      simp only [newTableFromString, e, Out.bind]
      simp [TableSet.tableCount, TableSet.getTableByTableIndex, goGet?, newTableSet, Out.bind]
    · rw [hts.1.rows]; exact h3

/-- A table with one column of integers. -/
def Ex.intTable (ty : ColType) (k : IntKind) (vs : List Int) : Table Addr :=
  { (newNilTable : Table Addr) with
    name := gs! "T", isNilTable := false, colNames := [gs! "i"], colTypes := [ty], colMap := [(gs! "i", 0)], rows := vs.map fun v => [.int k v] }

theorem Ex.wf_intTable (ty : ColType) (k : IntKind) (vs : List Int) (h : ∀ v ∈ vs, (Cell.int k v : Cell Addr).HasType ty) : WF (Ex.intTable ty k vs) := by
  refine ⟨by simp [Ex.intTable], (by decide : ∀ n ∈ [gs! "i"], isValidColName n = true), rfl, by simp [Ex.intTable], ?_, ?_, by simp [Ex.intTable], fun _ => (by decide : isValidTableName (gs! "T") = true), by simp [Ex.intTable, newNilTable]⟩
  · intro n i
    simp only [Ex.intTable, GoMap.get?]
    match i with
    | 0 => grind
    | i + 1 => grind
  · intro row hr
    obtain ⟨v, hv, rfl⟩ := List.mem_map.1 hr
    refine ⟨rfl, fun i ty' c h1 h2 => ?_⟩
    match i with
    | 0 =>
      simp [Ex.intTable] at h1 h2
      subst h1 h2
      exact h v hv
    | i + 1 => simp [Ex.intTable] at h1

/-- A table that meets the hypotheses, and its text. -/
def Ex.tbl38 : Table Addr :=
  { (newNilTable : Table Addr) with
    name := gs! "T", isNilTable := false, colNames := [gs! "i", gs! "text", gs! "b"], colTypes := [.int64, .string, .byteSlice],
    colMap := [(gs! "i", 0), (gs! "text", 1), (gs! "b", 2)],
    rows := [[.int .int64 (-9007199254740992), .str (gs! "a  b"), .bytes (some [1, 255])], [.int .int64 7, .str [], .bytes none]] }

theorem Ex.wf_tbl38 : WF Ex.tbl38 := by
  refine ⟨by decide, by decide, by decide, by decide, ?_, ?_, by decide, by decide, by simp [Ex.tbl38, newNilTable]⟩
  · intro n i
    by_cases h : i < 3
    · simp only [Ex.tbl38, GoMap.get?]
      match i, h with
      | 0, _ => grind
      | 1, _ => grind
      | 2, _ => grind
    · have : Ex.tbl38.colNames[i]? = none := List.getElem?_eq_none (by simp [Ex.tbl38]; omega)
      rw [this]
      simp only [Ex.tbl38, GoMap.get?]
      grind
  · intro row hr
    simp only [Ex.tbl38, List.mem_cons, List.not_mem_nil, or_false] at hr
    rcases hr with rfl | rfl
    all_goals
      refine ⟨by decide, fun i ty c h1 h2 => ?_⟩
      simp only [Ex.tbl38] at h1
      match i with
      | 0 | 1 | 2 =>
        simp at h1 h2
        subst h1 h2
        simp [Cell.HasType, IntKind.lo, IntKind.hi, IntKind.signed, IntKind.bits]
      | i + 3 => simp at h1

theorem Ex.writable_tbl38 : Writable paddedType Ex.tbl38 ∧ ∀ row ∈ Ex.tbl38.rows, ∀ c ∈ row, PadSafe c := by
  refine ⟨⟨Ex.wf_tbl38, rfl, by unfold Ascii; decide, by decide, by decide, ?_⟩, ?_⟩
  · intro row hr
    simp only [Ex.tbl38, List.mem_cons, List.not_mem_nil, or_false] at hr
    rcases hr with rfl | rfl <;> simp [Ex.tbl38, Pointwise, TextSafe]
  · intro row hr
    simp only [Ex.tbl38, List.mem_cons, List.not_mem_nil, or_false] at hr
    rcases hr with rfl | rfl <;> simp [PadSafe]

example : stringPadded Ex.env [] Ex.tbl38 =
    .ok (gs! "[T]\n                i text   b\n            int64 string []byte\n-9007199254740992 \"a  b\" [1 255]\n                7 \"\"     []\n") := by
  decide +kernel

/-- The claim is false: 2^53 + 1 is read back as 2^53. -/
theorem C38_changed : ∃ t s H' a t', WF t ∧ t.isNilTable = false ∧ t.rows = [[.int .int64 9007199254740993]] ∧ stringPadded Ex.env [] t = .ok s ∧
    newTableFromString Ex.env.text [] s = .ok (H', a) ∧ H'[a]? = some t' ∧ t'.rows = [[.int .int64 9007199254740992]] :=
  ⟨Ex.intTable .int64 .int64 [9007199254740993], gs! "[T]\n               i\n           int64\n9007199254740992\n",
    [Ex.intTable .int64 .int64 [9007199254740992]], 0, Ex.intTable .int64 .int64 [9007199254740992],
    Ex.wf_intTable _ _ _ (by simp [Cell.HasType, IntKind.lo, IntKind.hi, IntKind.signed, IntKind.bits]), rfl, rfl, by decide +kernel, by decide +kernel, rfl, rfl⟩

/-- The greatest uint64 is written as 2^64, which the parser refuses. -/
theorem C38_refused : ∃ t s, WF t ∧ t.isNilTable = false ∧ t.rows = [[.int .uint64 18446744073709551615]] ∧ stringPadded Ex.env [] t = .ok s ∧
    (newTableFromString Ex.env.text [] s).isOk = false :=
  ⟨Ex.intTable .uint64 .uint64 [18446744073709551615], gs! "[T]\n                   i\n              uint64\n18446744073709551616\n",
    Ex.wf_intTable _ _ _ (by simp [Cell.HasType, IntKind.lo, IntKind.hi, IntKind.signed, IntKind.bits]), rfl, rfl, by decide +kernel, by decide +kernel⟩

end Verif
