import Verif.Props.C74

/-!
# C88: cell infos
-/

namespace Verif
open Table

variable {τ : Type}

/-- **C88**, for a column that exists: asked by name or by position, the info has the name, the type and the position of the column, and the
row asked for; and the name and the position lead to the same cell.
Missing: that there is an error if the row or the column does not exist, which is false of the code (`C88_false_row`, `C88_false_col`). -/
theorem C88_partial (t : Table τ) (h : WF t) (i : Nat) (n : GoStr) (ty : ColType) (hn : t.colNames[i]? = some n) (hty : t.colTypes[i]? = some ty) (r : Int) :
    t.getCellInfo n r = .ok ⟨n, ty, i, r⟩ ∧ t.getCellInfoByColIndex i r = .ok ⟨n, ty, i, r⟩ ∧ t.getVal n r = t.getValByColIndex i r := by
  have e1 : t.getCellInfoByColIndex i r = .ok ⟨n, ty, i, r⟩ := by
    simp only [getCellInfoByColIndex, goGet?_nat, hty, colName_nat hn, Out.bind]
  have hix : t.colIndex n = .ok i := by
    rcases h.colIndex_cases n with ⟨j, hj, hix⟩ | ⟨hi, _⟩
    · have e : j = i := by
        have a := (h.mapIff n j).2 hj
        have b := (h.mapIff n i).2 hn
        rw [a] at b
        exact Option.some.inj b
      rw [hix, e]
    · exact absurd (List.mem_of_getElem? hn) hi
  refine ⟨by simp only [getCellInfo, hix, Out.bind, e1], e1, ?_⟩
  have hnil : ¬ t.isNilTable = true := by
    intro hx
    rw [(h.nilEmpty hx).1] at hn
    simp at hn
  simp only [getVal, hix, Out.bind, if_neg hnil]

/-- **C88**, for a column that does not exist: asked by name, an error. -/
theorem C88_partial_noColumn (t : Table τ) (h : WF t) (n : GoStr) (hn : n ∉ t.colNames) (r : Int) : ∃ e, t.getCellInfo n r = .err e := by
  rcases h.colIndex_cases n with ⟨i, hi, _⟩ | ⟨_, hix⟩
  · exact absurd (List.mem_of_getElem? hi) hn
  · exact ⟨_, by simp only [getCellInfo, hix, Out.bind]; rfl⟩

/-- **C88**, what is returned at all: an info only ever describes a column of the table, with its own name and type. -/
theorem C88_partial_info (t : Table τ) (h : WF t) (c r : Int) (info : CellInfo) (hi : t.getCellInfoByColIndex c r = .ok info) :
    ∃ i : Nat, c = i ∧ info.colIndex = i ∧ info.rowIndex = r ∧ t.colNames[i]? = some info.colName ∧ t.colTypes[i]? = some info.colType := by
  unfold getCellInfoByColIndex at hi
  by_cases h0 : 0 ≤ c
  · obtain ⟨i, rfl⟩ := Int.eq_ofNat_of_zero_le h0
    rw [goGet?_nat] at hi
    cases hty : t.colTypes[i]? with
    | none => rw [hty] at hi; cases hi
    | some ty =>
      have hlt : i < t.colNames.length := by rw [← h.typesLen]; exact (List.getElem?_eq_some_iff.1 hty).1
      have en := List.getElem?_eq_getElem hlt
      rw [hty] at hi
      simp only [colName_nat en, Out.bind] at hi
      cases hi
      exact ⟨i, rfl, rfl, rfl, en, hty⟩
  · have : goGet? t.colTypes c = none := by simp [goGet?, h0]
    rw [this] at hi; cases hi

/-- **C88 is false of the code**: an info is returned for a row that does not exist. -/
theorem C88_false_row : ¬ (∀ t : Table Unit, WF t → ∀ n r info, t.getCellInfo n r = .ok info → ∃ v, t.getVal n r = .ok v) := by
  intro hall
  obtain ⟨v, hv⟩ := hall Ex.t Ex.wf (gs! "age") 99 ⟨gs! "age", .int, 1, 99⟩ (by decide +kernel)
  have : Ex.t.getVal (gs! "age") 99 = .err .noRow := by decide +kernel
  rw [this] at hv; cases hv

/-- **C88 is false of the code**: asked for a column by a position that does not exist it panics instead of returning an error. -/
theorem C88_false_col : ¬ (∀ t : Table Unit, WF t → ∀ c r, t.getCellInfoByColIndex c r ≠ .panic) := by
  intro hall
  exact hall Ex.t Ex.wf 3 0 (by decide +kernel)

example : Ex.t.getCellInfo (gs! "age") 0 = .ok ⟨gs! "age", .int, 1, 0⟩ ∧ Ex.t.getCellInfoByColIndex 1 0 = .ok ⟨gs! "age", .int, 1, 0⟩ := by decide +kernel
example : Ex.t.getCellInfo (gs! "no") 0 = .err .noCol := by decide +kernel
example : (gs! "no") ∉ Ex.t.colNames ∧ Ex.t.colNames[1]? = some (gs! "age") ∧ Ex.t.colTypes[1]? = some .int := by decide +kernel

end Verif
