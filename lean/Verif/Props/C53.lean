import Verif.Props.C47

/-!
# C53 IsValidTable

Quantified over all well-formed tables; every table made by calls of the API is well-formed (`C01_history`).
-/

namespace Verif
open Table

theorem WF.mapLen {τ : Type} {t : Table τ} (h : WF t) : t.colMap.length = t.colNames.length := by
  have h1 : (t.colMap.map Prod.fst).length ≤ t.colNames.length := by
    refine nodup_subset_length h.mapKeys fun n hn => ?_
    obtain ⟨i, hi⟩ := GoMap.get?_isSome_iff_mem.2 hn
    exact List.mem_of_getElem? ((h.mapIff n i).1 hi)
  have h2 : t.colNames.length ≤ (t.colMap.map Prod.fst).length := by
    refine nodup_subset_length h.namesNodup fun n hn => ?_
    obtain ⟨i, hi⟩ := List.mem_iff_getElem?.1 hn
    exact GoMap.get?_isSome_iff_mem.1 ⟨i, (h.mapIff n i).2 hi⟩
  rw [List.length_map] at h1 h2
  omega

/-- **C53**, in general: `IsValidTable` of a well-formed table returns true exactly if the table has a valid name and
`IsValidTableNesting` returns true; if it returns false it returns an error too; and it does not panic. -/
theorem C53_isValidTable (H : Heap) (hw : HeapWF H) (hcl : Closed H) (d : Nat) (hd : H.length + 2 ≤ d) (a : Addr) (t : Table Addr)
    (ht : H[a]? = some t) :
    (isValidTableAt H d a = .valid ↔ isValidTableName t.name = true ∧ isValidTableNesting H d a = .ok ()) ∧
    isValidTableAt H d a ≠ .invalid none ∧ isValidTableAt H d a ≠ .panic := by
  have hwf := hw t (List.mem_of_getElem? ht)
  have ha := (List.getElem?_eq_some_iff.1 ht).1
  have hnp := (C47_exact H hw hcl d hd a ha).2
  unfold isValidTableAt
  simp only [ht]
  by_cases h0 : t.name = []
  · have : isValidTableName t.name = false := by rw [h0]; rfl
    simp [h0, isValidTableName]
  · rw [if_neg h0]
    by_cases h1 : isValidTableName t.name = false
    · simp [h1]
    · have h1' : isValidTableName t.name = true := by simpa using h1
      rw [if_neg h1]
      have e1 : checkEach (fun n => if isValidColName n = false then Out.err Err.badColName else .ok ()) t.colNames = .ok () :=
        checkEach_ok.2 fun n hn => by simp [hwf.namesValid n hn]
      have e2 : isValidColNamesMap t = .ok () := by
        refine checkEach_ok.2 fun i hi => ?_
        have hl : i < t.colNames.length := by rw [← hwf.mapLen]; exact List.mem_range.1 hi
        have en := List.getElem?_eq_getElem hl
        have := (hwf.mapIff _ _).2 en
        simp [en, this]
      have e3 : checkEach (isValidRow t) (List.range t.rowCount) = .ok () := by
        refine checkEach_ok.2 fun r hr => ?_
        have hl : r < t.rows.length := List.mem_range.1 hr
        have := (hwf.rowsOK _ (List.getElem_mem hl)).1
        rw [hwf.typesLen] at this
        simp [isValidRow, List.getElem?_eq_getElem hl, this, colCount]
      have e4 : checkEach (fun k => if isValidColName k.colName = false then Out.err Err.badColName
          else if hasCompareFn k.colType = false then .err .badSortKey else .ok ()) t.sortKeys = .ok () := by
        refine checkEach_ok.2 fun k hk => ?_
        obtain ⟨k1, k2⟩ := hwf.keysOK k hk
        simp [k2, hasCompareFn_eq, k1]
      rw [e1, e2, e3, e4]
      simp only [Validity.check, hwf.typesLen, hwf.mapLen, ne_eq, not_true, if_false]
      cases hv : isValidTableNesting H d a with
      | ok _ => simp [h1']
      | err e => simp
      | panic => exact absurd hv hnp

/-- **C53**: `IsValidTable` returns true for every well-formed named table without nested tables. -/
theorem C53_flat (H : Heap) (hw : HeapWF H) (hcl : Closed H) (d : Nat) (hd : H.length + 2 ≤ d) (a : Addr) (t : Table Addr)
    (ht : H[a]? = some t) (hnil : t.isNilTable = false) (hflat : Flat t) : isValidTableAt H d a = .valid := by
  have hwf := hw t (List.mem_of_getElem? ht)
  have ha := (List.getElem?_eq_some_iff.1 ht).1
  refine (C53_isValidTable H hw hcl d hd a t ht).1.2 ⟨hwf.nameValid hnil, (C47_exact H hw hcl d hd a ha).1.2 ?_⟩
  have hno : ∀ c r b, ¬ HoldsAt H a c r b := by
    rintro c r b ⟨t', h1, h2⟩
    rw [ht] at h1; cases h1
    obtain ⟨n, h3, _, h4, _⟩ := nestedAt_At hwf h2
    exact hflat n ⟨c, h3, h4⟩
  exact ⟨fun c r b hb => absurd hb (hno c r b), fun c r c' r' b hb => absurd hb (hno c r b)⟩

/-- **C53**, the other direction, of any tables in memory whatsoever (the import of decoded tables relies on it): if `IsValidTable` returns true, then the table has a valid name and distinct valid
column names, as many types as names, and each row has as many cells as there are columns; each column but the first has its own position in the map of the names, and
the first has it or is missing; and the sort keys have valid names and sortable types. -/
theorem C53_detects (H : Heap) (d : Nat) (a : Addr) (t : Table Addr) (ht : H[a]? = some t) (hv : isValidTableAt H d a = .valid) :
    isValidTableName t.name = true ∧ (∀ n ∈ t.colNames, isValidColName n = true) ∧ t.colNames.Nodup ∧ t.colTypes.length = t.colNames.length ∧
    (∀ row ∈ t.rows, row.length = t.colNames.length) ∧ t.colMap.length = t.colNames.length ∧
    (∀ i n, t.colNames[i]? = some n → t.colMap.get? n = some i ∨ (i = 0 ∧ t.colMap.get? n = none)) ∧
    (∀ k ∈ t.sortKeys, isValidColName k.colName = true ∧ k.colType.Sortable = true) := by
  unfold isValidTableAt at hv
  simp only [ht] at hv
  split at hv
  · simp at hv
  split at hv
  · simp at hv
  rename_i h1
  unfold Validity.check at hv
  split at hv <;> try (simp at hv; done)
  rename_i h2
  split at hv
  · simp at hv
  rename_i h3
  split at hv
  · simp at hv
  rename_i h4
  split at hv <;> try (simp at hv; done)
  rename_i h5
  split at hv <;> try (simp at hv; done)
  rename_i h6
  split at hv <;> try (simp at hv; done)
  split at hv <;> try (simp at hv; done)
  rename_i h7
  have hmap : ∀ i n, t.colNames[i]? = some n → (t.colMap.get? n).getD 0 = i := by
    intro i n hi
    have hl := (List.getElem?_eq_some_iff.1 hi).1
    have := checkEach_ok.1 h5 i (by rw [List.mem_range]; omega)
    simp only [hi] at this
    split at this
    · simp at this
    · rename_i hh
      simpa using hh
  refine ⟨by simpa using h1, fun n hn => ?_, ?_, by simpa using h3, fun row hr => ?_, by simpa using h4, fun i n hi => ?_, fun k hk => ?_⟩
  · have := checkEach_ok.1 h2 n hn
    split at this
    · simp at this
    · rename_i hh
      simpa using hh
  · rw [List.nodup_iff_pairwise_ne, List.pairwise_iff_getElem]
    intro i j hi hj hij e
    have e1 := hmap _ _ (List.getElem?_eq_getElem hi)
    have e2 := hmap _ _ (List.getElem?_eq_getElem hj)
    rw [e] at e1
    omega
  · obtain ⟨r, hr⟩ := List.mem_iff_getElem?.1 hr
    have hl := (List.getElem?_eq_some_iff.1 hr).1
    have := checkEach_ok.1 h6 r (List.mem_range.2 hl)
    simp only [isValidRow, hr] at this
    split at this
    · simp at this
    · rename_i hh
      simpa [colCount] using hh
  · have := hmap i n hi
    cases hg : t.colMap.get? n with
    | none => rw [hg] at this; exact .inr ⟨by simpa using this.symm, rfl⟩
    | some j => rw [hg] at this; exact .inl (by simpa using this)
  · have := checkEach_ok.1 h7 k hk
    split at this
    · simp at this
    · rename_i hh
      split at this
      · simp at this
      · rename_i hh2
        exact ⟨by simpa using hh, by rw [← hasCompareFn_eq]; simpa using hh2⟩

-- a row that is too long, and one that is too short; the types of the cells are not looked at
example : isValidTableAt [{ (newNilTable : Table Addr) with name := gs! "T", isNilTable := false, colNames := [gs! "a"], colTypes := [.int], colMap := [(gs! "a", 0)], rows := [[.int .int 1, .int .int 2]] }] 3 0 =
    .invalid (some .other) := by decide +kernel
example : isValidTableAt [{ (newNilTable : Table Addr) with name := gs! "T", isNilTable := false, colNames := [gs! "a"], colTypes := [.int], colMap := [(gs! "a", 0)], rows := [[]] }] 3 0 =
    .invalid (some .other) := by decide +kernel
example : isValidTableAt [{ (newNilTable : Table Addr) with name := gs! "T", isNilTable := false, colNames := [gs! "a"], colTypes := [.int], colMap := [(gs! "a", 0)], rows := [[.str []]] }] 3 0 =
    .valid := by decide +kernel

-- a flat table; a table with flat tables; an unnamed table; two levels
example : isValidTableAt Ex.tree 5 0 = .valid :=
  C53_flat Ex.tree Ex.tree_wf Ex.tree_acyclic.closed 5 (by decide) 0 _ rfl (by decide +kernel)
    (by rintro n ⟨i, h, _⟩; have : (Ex.leaf (gs! "A")).colNames = [] := by decide +kernel
        rw [this] at h; simp at h)
example : isValidTableAt Ex.tree 5 2 = .valid := by decide +kernel
example : isValidTableAt [newNilTable] 3 0 = .invalid (some .badTableName) := by decide +kernel
example : ∃ e, isValidTableAt Ex.chain 5 2 = .invalid (some e) := ⟨.circular, by decide +kernel⟩

/-- On a table whose name map is out of step (which no call of the API makes) the result is false without an error. -/
example : isValidTableAt [{ Ex.holder 0 with colMap := [(gs! "p", 1)] }] 3 0 = .invalid none := by decide +kernel

end Verif
