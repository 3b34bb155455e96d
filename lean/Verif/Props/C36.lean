import Verif.Spec.Padded
import Verif.Lemmas.PrintTable
import Verif.Lemmas.GoFloat

/-!
# C36: a table written by StringUnpadded is read back

`stringUnpadded P H t` is `t.StringUnpadded()` with memory `H`, and `newTableFromString P.text H0 s` is `NewTableFromString(s)` with memory `H0`.  `P` holds the
library functions that are not modelled.  Of strconv's conversion of floats `FloatOK` is used, which holds of the model of strconv (`C36_floats`).  `Writable plainType t` says that `t` is a well-formed table with a name
in ASCII whose columns are of the basic types, whose runes are code points, whose floats are not infinite, and which has a column if it has a row.
-/

namespace Verif
open Table

/-- **C36**: the text is read back as a table with the same name, column names, column types and rows.  The tables in memory are not changed. -/
theorem C36_roundTrip (P : PrintEnv) (hF : FloatOK P.text.float) (H H0 : Heap) (t : Table Addr) (h : Writable plainType t)
    (hshape : t.isStructShape = false ∨ 1 < t.rows.length) :
    ∃ s t', stringUnpadded P H t = .ok s ∧ newTableFromString P.text H0 s = .ok (H0 ++ [t'], H0.length) ∧ TextSame t t' := by
  obtain ⟨ls, rows', h1, h2, h3, h4, h5⟩ := stringUnpadded_lines P hF H h hshape
  let b : Block := { name := t.name, names := t.colNames, types := t.colTypes, rows := rows', lines := ls }
  have hb : b.OK P.text := ⟨h2, h.wf.nameValid h.notNil, h.ascii, h.wf.typesLen, h.wf.namesValid, h.wf.namesNodup, h4, h5⟩
  obtain ⟨ts, e, hts⟩ := parseBlocks P.text H0 [b] (by simpa using hb) (by simp)
  match ts, hts with
  | [t'], hts =>
    refine ⟨_, t', h1, ?_, hts.1.name, hts.1.colNames, hts.1.colTypes, ?_⟩
    · have e : newTableSetFromString P.text H0 (unlines ls) = _ := e
      simp only [newTableFromString, e, Out.bind]
      simp [TableSet.tableCount, TableSet.getTableByTableIndex, goGet?, newTableSet, Out.bind]
    · rw [hts.1.rows]; exact h3

/-- strconv's conversion of floats, as modelled in `Verif.Go.FloatConv`, is as `C36_roundTrip` needs it: every finite float, written in the shortest way, is a decimal number
that is read back as the same float. -/
theorem C36_floats : FloatOK goFloat := floatOK_go

/-- `C36_roundTrip` with the model of strconv: nothing is assumed of floats. -/
theorem C36_roundTrip_strconv (P : PrintEnv) (hP : P.text.float = goFloat) (H H0 : Heap) (t : Table Addr) (h : Writable plainType t)
    (hshape : t.isStructShape = false ∨ 1 < t.rows.length) :
    ∃ s t', stringUnpadded P H t = .ok s ∧ newTableFromString P.text H0 s = .ok (H0 ++ [t'], H0.length) ∧ TextSame t t' :=
  C36_roundTrip P (by rw [hP]; exact C36_floats) H H0 t h hshape

/-! ## A concrete case -/

/-- An environment for the examples. -/
def Ex.env : PrintEnv := { text := { float := goFloat, parseTime := goParseTime fun _ => none }, printable := fun _ => false, fmtTime := goFormatTime }

theorem Ex.env_go : Ex.env.IsGo := ⟨rfl, rfl, _, rfl⟩

/-- A table with two rows. -/
def Ex.tbl36 : Table Addr :=
  { (newNilTable : Table Addr) with
    name := gs! "T1", isNilTable := false, colNames := [gs! "s", gs! "i", gs! "r", gs! "f", gs! "b"], colTypes := [.string, .int, .rune, .float64, .bool],
    colMap := [(gs! "s", 0), (gs! "i", 1), (gs! "r", 2), (gs! "f", 3), (gs! "b", 4)],
    rows := [[.str (gs! "x \"y\"\n"), .int .int (-7), .int .int32 39, .f64 0x7FF8000000000001#64, .bool true],
             [.str [], .int .int 9223372036854775807, .int .int32 0x10FFFF, .f64 0#64, .bool false]] }

theorem Ex.wf_tbl36 : WF Ex.tbl36 := by
  refine ⟨by decide, by decide, by decide, by decide, ?_, ?_, by decide, by decide, by simp [Ex.tbl36, newNilTable]⟩
  · intro n i
    by_cases h : i < 5
    · simp only [Ex.tbl36, GoMap.get?]
      match i, h with
      | 0, _ => grind
      | 1, _ => grind
      | 2, _ => grind
      | 3, _ => grind
      | 4, _ => grind
    · have : Ex.tbl36.colNames[i]? = none := List.getElem?_eq_none (by simp [Ex.tbl36]; omega)
      rw [this]
      simp only [Ex.tbl36, GoMap.get?]
      grind
  · intro row hr
    simp only [Ex.tbl36, List.mem_cons, List.not_mem_nil, or_false] at hr
    rcases hr with rfl | rfl
    all_goals
      refine ⟨by decide, fun i ty c h1 h2 => ?_⟩
      simp only [Ex.tbl36] at h1
      match i with
      | 0 | 1 | 2 | 3 | 4 =>
        simp at h1 h2
        subst h1 h2
        simp [Cell.HasType, IntKind.lo, IntKind.hi, IntKind.signed, IntKind.bits]
      | i + 5 => simp at h1

/-- It meets the hypotheses. -/
theorem Ex.writable_tbl36 : Writable plainType Ex.tbl36 :=
  ⟨Ex.wf_tbl36, rfl, by unfold Ascii; decide, by decide, by decide, by
    intro row hr
    simp only [Ex.tbl36, List.mem_cons, List.not_mem_nil, or_false] at hr
    rcases hr with rfl | rfl <;> simp [Ex.tbl36, Pointwise, TextSafe, finite64, isNaN64, isNaNBits]⟩

/-- The text that it is written as. -/
example : stringUnpadded Ex.env [] Ex.tbl36 = .ok (gs! "[T1]\ns i r f b\nstring int rune float64 bool\n\"x \\\"y\\\"\\n\" -7 '\\'' NaN true\n\"\" 9223372036854775807 '\\U0010ffff' 0 false\n") := by
  decide +kernel

/-! ## What the text format does not preserve -/

/-- A table without columns that has rows is read back without rows: every row is written as an empty line. -/
theorem C36_rowsLost : ∃ (t : Table Addr) (s : GoStr) (H' : Heap) (a : Addr) (t' : Table Addr), WF t ∧ t.isNilTable = false ∧ t.isStructShape = false ∧
    t.rows.length = 2 ∧ stringUnpadded Ex.env [] t = .ok s ∧ newTableFromString Ex.env.text [] s = .ok (H', a) ∧ H'[a]? = some t' ∧ t'.rows = [] := by
  refine ⟨{ (newNilTable : Table Addr) with name := gs! "T", isNilTable := false, rows := [[], []] }, gs! "[T]\n\n\n",
    [{ (newNilTable : Table Addr) with name := gs! "T", isNilTable := false }], 0, { (newNilTable : Table Addr) with name := gs! "T", isNilTable := false },
    ?_, rfl, rfl, rfl, rfl, ?_, rfl, rfl⟩
  · refine ⟨by simp [newNilTable], by simp [newNilTable], rfl, by simp [newNilTable], by simp [newNilTable, GoMap.get?], ?_, by simp, by decide, by simp [newNilTable]⟩
    intro row hr
    simp at hr
    subst hr
    exact ⟨rfl, by simp⟩
  · decide +kernel

/-- A table with one float. -/
def Ex.floatTable (b : BitVec 64) : Table Addr :=
  { (newNilTable : Table Addr) with
    name := gs! "T", isNilTable := false, colNames := [gs! "f"], colTypes := [.float64], colMap := [(gs! "f", 0)], rows := [[.f64 b]] }

/-- Infinity is refused by the parser, although strconv would read it. -/
theorem C36_infinity : ∃ s, stringUnpadded Ex.env [] (Ex.floatTable 0x7FF0000000000000#64) = .ok s ∧
    Ex.env.text.float.parse64 (Ex.env.text.float.fmt64 0x7FF0000000000000#64) = some 0x7FF0000000000000#64 ∧
    (newTableFromString Ex.env.text [] s).isOk = false :=
  ⟨gs! "[T]\nf\nfloat64\n+Inf\n", by decide +kernel, by decide +kernel, by decide +kernel⟩

/-- A table in struct shape with one row is written with its strings unescaped, so that a quote or a newline in a string is not read back. -/
theorem C36_struct : ∃ (t : Table Addr) (s : GoStr), Writable plainType t ∧ t.isStructShape = true ∧ t.rows = [[.str (gs! "a\nb")]] ∧
    stringUnpadded Ex.env [] t = .ok s ∧ (newTableFromString Ex.env.text [] s).isOk = false := by
  refine ⟨{ (newNilTable : Table Addr) with
    name := gs! "T", isNilTable := false, isStructShape := true, colNames := [gs! "s"], colTypes := [.string], colMap := [(gs! "s", 0)], rows := [[.str (gs! "a\nb")]] },
    gs! "[T]\ns string = \"a\nb\"\n", ⟨⟨by decide, by decide, by decide, by decide, ?_, ?_, by decide, by decide, by simp [newNilTable]⟩, rfl,
      by unfold Ascii; decide, by decide, by decide, ?_⟩, rfl, rfl, by decide +kernel, by decide +kernel⟩
  · intro n i
    simp only [GoMap.get?]
    match i with
    | 0 => grind
    | i + 1 => grind
  · intro row hr
    simp only [List.mem_singleton] at hr
    subst hr
    refine ⟨rfl, fun i ty c h1 h2 => ?_⟩
    match i with
    | 0 =>
      simp at h1 h2
      subst h1 h2
      simp [Cell.HasType]
    | i + 1 => simp at h1
  · intro row hr
    simp only [List.mem_singleton] at hr
    subst hr
    simp [Pointwise, TextSafe]

end Verif
