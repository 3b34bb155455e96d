import Verif.Props.C12

/-!
# C15 Name lookup and index lookup agree
-/

namespace Verif
open Table

variable {τ : Type}

/-- **C15**: `HasCol(n)` iff `n` is one of the column names; `ColIndex(n)` succeeds in the same cases. -/
theorem C15_hasCol (t : Table τ) (h : WF t) (n : GoStr) :
    (t.hasCol n = .ok () ↔ n ∈ t.colNames) ∧ ((∃ i, t.colIndex n = .ok i) ↔ n ∈ t.colNames) ∧
    t.hasCol n ≠ .panic ∧ t.colIndex n ≠ .panic := by
  rcases h.colIndex_cases n with ⟨i, hi, hix⟩ | ⟨hi, hix⟩
  · have hm := List.mem_of_getElem? hi
    rw [h.hasCol_ok hm, hix]
    simp [hm]
  · rw [h.hasCol_err hi, hix]
    simp [hi]

/-- **C15**: `ColIndex(ColName(i)) = i` for each valid `i`, an error otherwise. -/
theorem C15_index_name (t : Table τ) (h : WF t) (c : Int) :
    (0 ≤ c ∧ c < t.colNames.length → ∃ n, t.colName c = .ok n ∧ t.colIndex n = .ok c.toNat) ∧
    (¬ (0 ≤ c ∧ c < t.colNames.length) → ∃ e, t.colName c = .err e) := by
  constructor
  · rintro ⟨h0, h1⟩
    obtain ⟨ci, rfl⟩ := Int.eq_ofNat_of_zero_le h0
    have hlt : ci < t.colNames.length := by omega
    have hn := List.getElem?_eq_getElem hlt
    exact ⟨_, colName_nat hn, h.colIndex_ok.2 hn⟩
  · intro hno
    exact ⟨.noCol, if_pos (by simp only [colCount]; omega)⟩

/-- **C15**: for an existing column name, `ColName(ColIndex(n)) = n`, the types agree, and reading by name or by index agrees. -/
theorem C15_name_index (t : Table τ) (h : WF t) (n : GoStr) (i : Nat) (hi : t.colIndex n = .ok i) :
    t.colName i = .ok n ∧ t.colType n = t.colTypeByColIndex i ∧ (∃ ty, t.colType n = .ok ty) ∧
    (∀ r, t.getVal n r = t.getValByColIndex i r) := by
  have hc := h.colIndex_ok.1 hi
  obtain ⟨ty, hty⟩ := h.type_of_name hc
  have hct : t.colType n = .ok ty := by simp [colType, (h.mapIff n i).2 hc, hty]
  refine ⟨colName_nat hc, ?_, ⟨ty, hct⟩, fun r => (getValByColIndex_eq_getVal h hc r).symm⟩
  rw [hct]; exact (colTypeByColIndex_ok.2 ⟨by omega, by simpa using hty⟩).symm

/-- **C15**: outside the table reading gives an error, never a panic; inside it gives a value. -/
theorem C15_bounds (t : Table τ) (h : WF t) (c r : Int) :
    (0 ≤ c ∧ c < t.colNames.length ∧ 0 ≤ r ∧ r < t.rows.length → ∃ v, t.getValByColIndex c r = .ok v) ∧
    (¬ (0 ≤ c ∧ c < t.colNames.length ∧ 0 ≤ r ∧ r < t.rows.length) → ∃ e, t.getValByColIndex c r = .err e) := by
  constructor
  · rintro ⟨h0, h1, h2, h3⟩
    obtain ⟨ci, rfl⟩ := Int.eq_ofNat_of_zero_le h0
    obtain ⟨ri, rfl⟩ := Int.eq_ofNat_of_zero_le h2
    obtain ⟨row, v, _, _, e⟩ := getValByColIndex_nat h (c := ci) (r := ri) (by omega) (by omega)
    exact ⟨v, e⟩
  · exact getValByColIndex_err

/-- **C15**: `HasCell(n, r)` holds exactly where `GetVal(n, r)` gives a value. -/
theorem C15_hasCell (t : Table τ) (h : WF t) (n : GoStr) (r : Int) :
    t.hasCell n r = .ok () ↔ ∃ v, t.getVal n r = .ok v := by
  constructor
  · intro hc
    simp only [hasCell] at hc
    rcases h.colIndex_cases n with ⟨i, hi, hix⟩ | ⟨hi, hix⟩
    · have hm := List.mem_of_getElem? hi
      rw [h.hasCol_ok hm] at hc
      exact getVal_total h hm (hasRow_ok.1 hc)
    · rw [h.hasCol_err hi] at hc; cases hc
  · rintro ⟨v, hv⟩
    obtain ⟨ri, rfl, hat⟩ := (getVal_ok_iff h).1 hv
    obtain ⟨hm, hr⟩ := At_bound hat
    simp only [hasCell, h.hasCol_ok hm, Out.bind]
    exact hasRow_ok.2 ⟨by omega, by omega⟩

example : Ex.t.colIndex (gs! "age") = .ok 1 ∧ Ex.t.colName 1 = .ok (gs! "age") := by decide +kernel
example : Ex.t.getVal (gs! "age") 3 = .err .noRow ∧ Ex.t.getValByColIndex 3 0 = .err .noCol := by decide +kernel

end Verif
