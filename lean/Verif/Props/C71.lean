import Verif.Model.Files
import Verif.Props.C31
import Verif.Props.C39
import Verif.Props.C56
import Verif.Props.C59
import Verif.Props.C60

/-!
# C71: one table out of several

`newTableSetFromString env H0 s` is `NewTableSetFromString(s)` with memory `H0`; the result is the memory afterwards and the set.  `newTableFromStringByTableName`,
`newTableFromStringByTableIndex` and `newTableFromString` are the functions that return one table, and `newTableFromJSONByTableName` is the one for JSON.
-/

namespace Verif
open Table

/-- In a set of distinct names the table of a name is found, and nothing else. -/
theorem getTable_iff {H : Heap} {set : TableSet} (hnd : (setNames H set).Nodup) (n : GoStr) (a : Addr) :
    set.getTable H n = .ok a ↔ a ∈ set.tables ∧ nameAt H a = n := by
  unfold TableSet.getTable
  constructor
  · split
    · rename_i b hb
      intro h
      cases h
      exact ⟨List.mem_of_find?_eq_some hb, by simpa using List.find?_some hb⟩
    · intro h; cases h
  · rintro ⟨h1, h2⟩
    split
    · rename_i b hb
      have hb1 := List.mem_of_find?_eq_some hb
      have hb2 : nameAt H b = n := by simpa using List.find?_some hb
      have : b = a := by
        obtain ⟨i, hi⟩ := List.mem_iff_getElem?.1 hb1
        obtain ⟨j, hj⟩ := List.mem_iff_getElem?.1 h1
        have hil := (List.getElem?_eq_some_iff.1 hi).1
        have hij : i = j := List.getElem?_inj (l := setNames H set) (by simpa [setNames] using hil) hnd |>.1 (by simp [setNames, hi, hj, hb2, h2])
        subst hij
        exact Option.some.inj (hi.symm.trans hj)
      rw [this]
    · rename_i hb
      exact absurd h2 (by simpa using List.find?_eq_none.1 hb a h1)

theorem getTable_noPanic (H : Heap) (set : TableSet) (n : GoStr) : set.getTable H n ≠ .panic := by
  unfold TableSet.getTable
  split <;> simp

/-- The table at an index. -/
theorem getTableByTableIndex_iff (set : TableSet) (i : Int) (a : Addr) :
    (set.getTableByTableIndex i = .ok a ↔ 0 ≤ i ∧ set.tables[i.toNat]? = some a) ∧ set.getTableByTableIndex i ≠ .panic := by
  obtain ⟨h1, h2⟩ := C31_getTableByTableIndex set i
  by_cases h : 0 ≤ i ∧ i < set.tables.length
  · obtain ⟨b, hb, e⟩ := h1 h
    rw [e]
    refine ⟨⟨fun hx => ⟨h.1, by cases hx; exact hb⟩, fun hx => by rw [hb] at hx; exact congrArg Out.ok (Option.some.inj hx.2)⟩, by simp⟩
  · obtain ⟨e, he⟩ := h2 h
    rw [he]
    refine ⟨⟨fun hx => (nomatch hx), fun hx => absurd ⟨hx.1, ?_⟩ h⟩, by simp⟩
    have := (List.getElem?_eq_some_iff.1 hx.2).1
    omega

/-- **C71**, by name: reading a text and asking for a name gives the table of that name in the text, which is the only one; it is an error if the text cannot be read or has no such table. -/
theorem C71_byName (env : TextEnv) (H0 : Heap) (hw : HeapWF H0) (hcl : Closed H0) (s n : GoStr) :
    newTableFromStringByTableName env H0 s n ≠ .panic ∧
    ∀ H a, newTableFromStringByTableName env H0 s n = .ok (H, a) ↔ ∃ set, newTableSetFromString env H0 s = .ok (H, set) ∧ a ∈ set.tables ∧ nameAt H a = n := by
  obtain ⟨h1, h2⟩ := C39_parser env H0 hw hcl s
  unfold newTableFromStringByTableName
  cases hr : newTableSetFromString env H0 s with
  | panic => exact absurd hr h1
  | err e => simp [Out.bind]
  | ok p =>
    obtain ⟨K, set⟩ := p
    have hnd := (h2 K set hr).2.2.1
    simp only [Out.bind]
    cases hg : set.getTable K n with
    | panic => exact absurd hg (getTable_noPanic _ _ _)
    | err e =>
      refine ⟨by simp, fun H a => ⟨fun h => (nomatch h), ?_⟩⟩
      rintro ⟨set', e', h3⟩
      cases e'
      rw [(getTable_iff hnd n a).2 h3] at hg
      cases hg
    | ok b =>
      refine ⟨by simp, fun H a => ⟨fun h => ?_, ?_⟩⟩
      · cases h
        exact ⟨set, rfl, (getTable_iff hnd n b).1 hg⟩
      · rintro ⟨set', e', h3⟩
        cases e'
        rw [(getTable_iff hnd n a).2 h3] at hg
        cases hg
        rfl

/-- **C71**, by index: the table at that place in the text, or an error. -/
theorem C71_byIndex (env : TextEnv) (H0 : Heap) (hw : HeapWF H0) (hcl : Closed H0) (s : GoStr) (i : Int) :
    newTableFromStringByTableIndex env H0 s i ≠ .panic ∧
    ∀ H a, newTableFromStringByTableIndex env H0 s i = .ok (H, a) ↔
      ∃ set, newTableSetFromString env H0 s = .ok (H, set) ∧ 0 ≤ i ∧ set.tables[i.toNat]? = some a := by
  obtain ⟨h1, h2⟩ := C39_parser env H0 hw hcl s
  unfold newTableFromStringByTableIndex
  cases hr : newTableSetFromString env H0 s with
  | panic => exact absurd hr h1
  | err e => simp [Out.bind]
  | ok p =>
    obtain ⟨K, set⟩ := p
    simp only [Out.bind]
    have hiff := getTableByTableIndex_iff set i
    cases hg : set.getTableByTableIndex i with
    | panic => exact absurd hg (hiff 0).2
    | err e =>
      refine ⟨by simp, fun H a => ⟨fun h => (nomatch h), ?_⟩⟩
      rintro ⟨set', e', h3⟩
      cases e'
      rw [(hiff a).1.2 h3] at hg
      cases hg
    | ok b =>
      refine ⟨by simp, fun H a => ⟨fun h => ?_, ?_⟩⟩
      · cases h
        exact ⟨set, rfl, (hiff b).1.1 hg⟩
      · rintro ⟨set', e', h3⟩
        cases e'
        rw [(hiff a).1.2 h3] at hg
        cases hg
        rfl

/-- **C71**, the only table: `NewTableFromString` succeeds exactly if the text has one table; `NewTableFromStringMustMake` returns that table, and panics otherwise. -/
theorem C71_only (env : TextEnv) (H0 : Heap) (hw : HeapWF H0) (hcl : Closed H0) (s : GoStr) :
    (∀ H a, newTableFromString env H0 s = .ok (H, a) ↔ ∃ set, newTableSetFromString env H0 s = .ok (H, set) ∧ set.tables = [a]) ∧
    (∀ H a, newTableFromStringMustMake env H0 s = .ok (H, a) ↔ ∃ set, newTableSetFromString env H0 s = .ok (H, set) ∧ set.tables = [a]) ∧
    (newTableFromStringMustMake env H0 s = .panic ↔ ∀ H set a, newTableSetFromString env H0 s = .ok (H, set) → set.tables ≠ [a]) := by
  have hn := (C39_oneTable env H0 hw hcl s).1
  have key : ∀ H a, newTableFromString env H0 s = .ok (H, a) ↔ ∃ set, newTableSetFromString env H0 s = .ok (H, set) ∧ set.tables = [a] := by
    intro H a
    unfold newTableFromString
    cases hr : newTableSetFromString env H0 s with
    | panic => simp [Out.bind]
    | err e => simp [Out.bind]
    | ok p =>
      obtain ⟨K, set⟩ := p
      simp only [Out.bind]
      by_cases hc : set.tableCount = 1
      · rw [if_neg (by simpa using hc)]
        match ht : set.tables, hc with
        | [b], _ =>
          have : set.getTableByTableIndex 0 = .ok b := ((getTableByTableIndex_iff set 0 b).1).2 ⟨by omega, by simp [ht]⟩
          rw [this]
          constructor
          · intro h
            cases h
            exact ⟨set, rfl, ht⟩
          · rintro ⟨set', e', h3⟩
            cases e'
            rw [ht] at h3
            cases h3
            rfl
        | [], hc => simp [TableSet.tableCount, ht] at hc
        | _ :: _ :: _, hc => simp [TableSet.tableCount, ht] at hc
      · rw [if_pos hc]
        refine ⟨fun h => (nomatch h), ?_⟩
        rintro ⟨set', e', h3⟩
        cases e'
        simp [TableSet.tableCount, h3] at hc
  refine ⟨key, fun H a => ?_, ?_⟩
  · rw [← key]
    unfold newTableFromStringMustMake
    split
    · rename_i e he
      rw [he]
      simp
    · rfl
  · unfold newTableFromStringMustMake
    cases hr : newTableFromString env H0 s with
    | panic => exact absurd hr hn
    | err e =>
      refine ⟨fun _ H set a h1 h2 => ?_, fun _ => rfl⟩
      rw [(key H a).2 ⟨set, h1, h2⟩] at hr
      cases hr
    | ok p =>
      obtain ⟨K, b⟩ := p
      obtain ⟨set, h1, h2⟩ := (key K b).1 hr
      exact ⟨fun h => (nomatch h), fun h => absurd h2 (h K set b h1)⟩

/-- **C71**, written and read: every table of a set written by `String` is read back from the text by its name and by its index. -/
theorem C71_written (P : PrintEnv) (hP : P.IsGo) (H H0 : Heap) (hw : HeapWF H0) (hcl : Closed H0) (set : TableSet) (h : SetWritablePadded H set)
    (hnd : (setNames H set).Nodup) (hname : set.name = [] ∨ PlainName set.name) :
    ∃ s, set.stringPadded P H = .ok s ∧ ∀ (i : Nat) (a : Addr), set.tables[i]? = some a → ∃ (H' : Heap) (a' : Addr) (t t' : Table Addr),
      newTableFromStringByTableName P.text H0 s (nameAt H a) = .ok (H', a') ∧ newTableFromStringByTableIndex P.text H0 s i = .ok (H', a') ∧
      H[a]? = some t ∧ H'[a']? = some t' ∧ TextSame t t' := by
  obtain ⟨s, ts, set', h1, h2, h3, h4, h5⟩ := C56_roundTrip P hP H H0 set h hnd hname
  refine ⟨s, h1, fun i a hi => ?_⟩
  obtain ⟨a', t, t', g1, g2, g3, g4⟩ := h5 i a hi
  refine ⟨_, a', t, t', ?_, ?_, g2, g3, g4⟩
  · refine ((C71_byName P.text H0 hw hcl s _).2 _ _).2 ⟨set', h2, List.mem_of_getElem? g1, ?_⟩
    simp only [nameAt, g2, g3, g4.name]
  · exact ((C71_byIndex P.text H0 hw hcl s _).2 _ _).2 ⟨set', h2, by omega, by simpa using g1⟩

/-- **C71**, JSON: reading a JSON text and asking for a name gives the only table of that name. -/
theorem C71_json (E : JsonEnv) (hE : CastOK E) (H0 : Heap) (s n : GoStr) (H : Heap) (a : Addr) :
    newTableFromJSONByTableName E H0 s n = .ok (H, a) ↔ ∃ set, newTableSetFromJSON E H0 s = .ok (H, set) ∧ a ∈ set.tables ∧ nameAt H a = n := by
  unfold newTableFromJSONByTableName
  cases hr : newTableSetFromJSON E H0 s with
  | panic => simp [Out.bind]
  | err e => simp [Out.bind]
  | ok p =>
    obtain ⟨K, set⟩ := p
    have hnd : (setNames K set).Nodup := (C60_read E hE H0 s K set hr).2.2.2.2
    simp only [Out.bind]
    cases hg : set.getTable K n with
    | panic => exact absurd hg (getTable_noPanic _ _ _)
    | err e =>
      refine ⟨fun h => (nomatch h), ?_⟩
      rintro ⟨set', e', h3⟩
      cases e'
      rw [(getTable_iff hnd n a).2 h3] at hg
      cases hg
    | ok b =>
      constructor
      · intro h
        obtain ⟨rfl, rfl⟩ := Prod.mk.inj (Out.ok.inj h)
        exact ⟨set, rfl, (getTable_iff hnd n _).1 hg⟩
      · rintro ⟨set', e', h3⟩
        cases e'
        rw [(getTable_iff hnd n a).2 h3] at hg
        cases hg
        rfl

/-- **C71**, JSON written and read: every table of a set written as JSON is read back by its name, with the tables nested in it. -/
theorem C71_jsonWritten (P : PrintEnv) (E : JsonEnv) (hP : P.text.float = goFloat) (hE : E.text.float = goFloat) (hC : CastOK E) (H : Heap) (d : Nat) (S : TableSet) (s : GoStr)
    (h : getTableSetAsJSON P H d S = .ok s) (hname : JsonText P.printable S.name) (hnd : (S.tables.map (nameAt H)).Nodup)
    (hready : ∀ a ∈ S.tables, JsonReady P E H a ∧ SmallTree H a ∧ ¬ IsNil H a) (K : Heap) (a : Addr) (ha : a ∈ S.tables) :
    ∃ K' a', newTableFromJSONByTableName E K s (nameAt H a) = .ok (K', a') ∧ JsonTree SameValue H K' K.length d a a' := by
  obtain ⟨K', S', h1, h2, h3, h4⟩ := C59_set P E hP hE H d S s h hname hnd hready K
  obtain ⟨i, hi⟩ := List.mem_iff_getElem?.1 ha
  obtain ⟨a', hi', hT⟩ := h4.get i a hi
  refine ⟨K', a', (C71_json E hC K s _ K' a').2 ⟨S', h1, List.mem_of_getElem? hi', ?_⟩, hT⟩
  match d, hT with
  | d + 1, hT =>
    obtain ⟨_, t, t', e1, e2, _, _, _, _, e3, _⟩ := hT
    simp only [nameAt, e1, e2, e3]

/-! ## A concrete case -/

example : ∃ s, Ex.set56.stringPadded Ex.env Ex.heap56 = .ok s ∧
    (∃ (H' : Heap) (a' : Addr) (t' : Table Addr), newTableFromStringByTableName Ex.env.text [] s (gs! "T") = .ok (H', a') ∧ H'[a']? = some t' ∧ TextSame Ex.tbl38 t') := by
  obtain ⟨s, h1, h2⟩ := C71_written Ex.env Ex.env_go Ex.heap56 [] (by intro t ht; cases ht) (by rintro a b ⟨t, c, r, h⟩; simp at h) Ex.set56 Ex.writable_set56.1 Ex.writable_set56.2.1 (.inr Ex.writable_set56.2.2)
  obtain ⟨H', a', t, t', g1, _, g2, g3, g4⟩ := h2 0 1 rfl
  cases g2
  exact ⟨s, h1, H', a', t', g1, g3, g4⟩

/-- A name that is not there, an index past the end, and a text of two tables. -/
example : (newTableFromStringByTableName Ex.env.text [] (gs! "[A]\n\n[B]\ni\nint\n1\n") (gs! "C")).isOk = false ∧
    (newTableFromStringByTableName Ex.env.text [] (gs! "[A]\n\n[B]\ni\nint\n1\n") (gs! "B")).isOk = true ∧
    (newTableFromStringByTableIndex Ex.env.text [] (gs! "[A]\n\n[B]\ni\nint\n1\n") 2).isOk = false ∧
    (newTableFromStringByTableIndex Ex.env.text [] (gs! "[A]\n\n[B]\ni\nint\n1\n") 1).isOk = true ∧
    newTableFromStringMustMake Ex.env.text [] (gs! "[A]\n\n[B]\ni\nint\n1\n") = .panic := by decide +kernel

end Verif
