import Verif.Lemmas.Parser

/-!
# C39: the parser never panics and only returns valid tables

`newTableSetFromString env H s` is `NewTableSetFromString` of the text `s` with memory `H` (the tables of the program so far).  `env` is how
floats and times are read: any functions whatever, so nothing here depends on them.
-/

namespace Verif
open Table

/-- **C39**: whatever the text, the parser returns an error or a set (it does not panic, and being a total function it terminates).  In a set that
it returns the tables have distinct and valid names, and every table in memory — those of the set, the tables nested in them and those that
existed before — is well-formed, with every nested table existing.  The tables of the set are new, not nil tables, and no table that existed before
is changed. -/
theorem C39_parser (env : TextEnv) (H0 : Heap) (hw : HeapWF H0) (hcl : Closed H0) (s : GoStr) :
    newTableSetFromString env H0 s ≠ .panic ∧
    ∀ H set, newTableSetFromString env H0 s = .ok (H, set) →
      HeapWF H ∧ Closed H ∧ (setNames H set).Nodup ∧
      (∀ a ∈ set.tables, H0.length ≤ a ∧ ∃ t, H[a]? = some t ∧ t.isNilTable = false ∧ isValidTableName t.name = true) ∧
      (∀ (a : Addr) t, H0[a]? = some t → H[a]? = some t) := by
  have hp : PInv H0 (startState H0) := by
    refine ⟨⟨⟨[], by simp [startState]⟩, hw, ?_, by simp [startState, newTableSet], by simp [startState, newTableSet, setNames]⟩, by simp [startState],
      by simp [startState], by simp [startState], by simp [startState]⟩
    intro t ht row hr b hb
    obtain ⟨a, ha⟩ := List.mem_iff_getElem?.1 ht
    obtain ⟨r, hr⟩ := List.mem_iff_getElem?.1 hr
    obtain ⟨i, hi⟩ := List.mem_iff_getElem?.1 hb
    have hlen := ((hw t ht).rowsOK row (List.mem_of_getElem? hr)).1
    have hlt := (List.getElem?_eq_some_iff.1 hi).1
    rw [hlen, (hw t ht).typesLen] at hlt
    exact hcl a b ⟨t, _, r, ha, i, row, List.getElem?_eq_getElem hlt, hr, hi⟩
  have hr := parseLines_ok env hp (splitLines s)
  unfold newTableSetFromString
  refine ⟨Out.bind_noPanic hr.1 (by simp), fun H set e => ?_⟩
  obtain ⟨p, hpe, e⟩ := Out.bind_ok e
  simp only [Out.ok.injEq, Prod.mk.injEq] at e
  obtain ⟨rfl, rfl⟩ := e
  have hi := (hr.2 p hpe).inv
  refine ⟨hi.wf, ?_, hi.names, fun a ha => ?_, fun a t ht => ?_⟩
  · rintro a b ⟨t, n, r, ht, i, row, _, hrow, hc⟩
    exact hi.below t (List.mem_of_getElem? ht) row (List.mem_of_getElem? hrow) b (List.mem_of_getElem? hc)
  · obtain ⟨h1, _, t, ht, hn, hwt, _⟩ := hi.get ha
    exact ⟨h1, t, ht, hn, hwt.nameValid hn⟩
  · obtain ⟨K, hK⟩ := hi.ext
    rw [hK, List.getElem?_append_left (List.getElem?_eq_some_iff.1 ht).1, ht]

/-- `NewTableFromString` likewise returns an error or one well-formed new table with a valid name. -/
theorem C39_oneTable (env : TextEnv) (H0 : Heap) (hw : HeapWF H0) (hcl : Closed H0) (s : GoStr) :
    newTableFromString env H0 s ≠ .panic ∧
    ∀ H a, newTableFromString env H0 s = .ok (H, a) →
      HeapWF H ∧ Closed H ∧ H0.length ≤ a ∧ (∃ t, H[a]? = some t ∧ t.isNilTable = false ∧ isValidTableName t.name = true) ∧
      (∀ (a : Addr) t, H0[a]? = some t → H[a]? = some t) := by
  have h := C39_parser env H0 hw hcl s
  have hget : ∀ set : TableSet, set.tableCount = 1 → ∃ a, set.getTableByTableIndex 0 = .ok a ∧ a ∈ set.tables := by
    intro set hs
    simp only [TableSet.tableCount] at hs
    match hx : set.tables, hs with
    | [a], _ => exact ⟨a, by simp [TableSet.getTableByTableIndex, TableSet.tableCount, hx, goGet?], by simp⟩
  unfold newTableFromString
  constructor
  · refine Out.bind_noPanic h.1 fun ⟨H, set⟩ _ => ?_
    simp only
    split
    · simp
    · rename_i hc
      obtain ⟨a, ha, _⟩ := hget set (by simpa using hc)
      simp [ha, Out.bind]
  · intro H a e
    obtain ⟨⟨H', set⟩, hset, e⟩ := Out.bind_ok e
    simp only at e
    split at e
    · simp at e
    · rename_i hc
      obtain ⟨b, hb, hm⟩ := hget set (by simpa using hc)
      rw [hb] at e
      simp only [Out.bind, Out.ok.injEq, Prod.mk.injEq] at e
      obtain ⟨rfl, rfl⟩ := e
      obtain ⟨h1, h2, _, h4, h5⟩ := h.2 _ _ hset
      exact ⟨h1, h2, (h4 b hm).1, (h4 b hm).2, h5⟩

/-! ## Concrete texts -/

/-- An environment that reads no floats and no times. -/
def Ex.noFloats : TextEnv :=
  { float := { fmt32 := fun _ => [], fmt64 := fun _ => [], parse32 := fun _ => none, parse64 := fun _ => none, prec32 := fun _ _ => [],
               prec64 := fun _ _ => [] }, parseTime := fun _ => none }

/-- Two tables with cells. -/
def Ex.text : GoStr := gs! "[A]\ni s\nint string\n-7 \"x y\"\n8 \"\\n\"\n\n# comment\n[B]\n  t  u\n*Table uint8\n[C] 200\n"

example : ((newTableSetFromString Ex.noFloats [] Ex.text).bind fun (H, set) => .ok (setNames H set, H.map (·.rows))) =
    .ok ([gs! "A", gs! "B"], [[[.int .int (-7), .str (gs! "x y")], [.int .int 8, .str [10]]], [[.tbl (some 2), .int .uint8 200]], []]) := by
  decide +kernel

/-- A table in struct shape. -/
example : ((newTableSetFromString Ex.noFloats [] (gs! "[S]\nn uint8 = 200\n")).bind fun (H, set) => .ok (set.tables, (H[0]?).map (·.rows))) =
    .ok ([0], some [[.int .uint8 200]]) := by decide +kernel

/-- A value out of range, a name used twice, a missing cell, an unknown type: errors. -/
example : (newTableSetFromString Ex.noFloats [] (gs! "[A]\ni\nuint8\n256\n")).isOk = false ∧
    (newTableSetFromString Ex.noFloats [] (gs! "[A]\n\n[A]\n")).isOk = false ∧
    (newTableSetFromString Ex.noFloats [] (gs! "[A]\ni j\nint int\n1\n")).isOk = false ∧
    (newTableSetFromString Ex.noFloats [] (gs! "[A]\ni i\nint int\n1 2\n")).isOk = false ∧
    (newTableSetFromString Ex.noFloats [] (gs! "[A]\ni\ncomplex\n")).isOk = false := by decide +kernel

/-- The end of the text is treated differently from an empty line: column names without types are refused if a newline follows, and accepted (as a
table without columns) at the end of the text. -/
example : (newTableSetFromString Ex.noFloats [] (gs! "[A]\ni j\n")).isOk = false ∧
    (newTableSetFromString Ex.noFloats [] (gs! "[A]\ni j")).isOk = true := by decide +kernel

end Verif
