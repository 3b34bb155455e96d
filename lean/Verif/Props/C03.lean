import Verif.Lemmas.At
import Verif.Props.C01

/-!
# C03 A value written is the value read, and nothing else changes
-/

namespace Verif
open Table

variable {τ : Type}

/-- What a successful write of `v` at column `n`, row `r` must do: the cell reads back as `v`, every other cell of the table reads
as before (same result, value or error), the number of rows and everything besides the rows is unchanged, and the table is well-formed. -/
def WriteSpec (t t' : Table τ) (n : GoStr) (r : Int) (v : Cell τ) : Prop :=
  t'.getVal n r = .ok v ∧
  (∀ (n' : GoStr) (r' : Int), ¬ (n' = n ∧ r' = r) → t'.getVal n' r' = t.getVal n' r') ∧
  t'.rows.length = t.rows.length ∧ SameHeader t t' ∧ WF t'

theorem putCell_writeSpec {t : Table τ} (h : WF t) {c r : Nat} {n : GoStr} {ty : ColType} {v : Cell τ}
    (hc : t.colNames[c]? = some n) (hty : t.colTypes[c]? = some ty) (hr : r < t.rows.length) (hv : v.HasType ty) :
    WriteSpec t (putCell t c r v) n r v := by
  have h' := h.putCell hty hv hr
  refine ⟨(getVal_ok_iff h').2 ⟨r, rfl, At_putCell_self h hc hr v⟩, ?_, putCell_rows_length t c r v, putCell_header t c r v, h'⟩
  intro n' r' hne
  by_cases hin : n' ∈ t.colNames ∧ 0 ≤ r' ∧ r' < t.rows.length
  · obtain ⟨x, hx⟩ := getVal_total h hin.1 hin.2
    rw [hx]
    obtain ⟨r1, rfl, hat⟩ := (getVal_ok_iff h).1 hx
    refine (getVal_ok_iff h').2 ⟨r1, rfl, (At_putCell_other h hc v ?_ x).2 hat⟩
    rintro ⟨e1, e2⟩; exact hne ⟨e1, by omega⟩
  · -- outside the table both calls fail in the same way
    rw [getVal_outside h hin, getVal_outside h' (by simpa [putCell] using hin)]
    rfl

/-- **C03** for `SetVal`. -/
theorem C03_setVal (t t' : Table τ) (h : WF t) (n : GoStr) (r : Int) (v : Cell τ) (hv : v.Real)
    (hok : t.setVal n r v = (t', .ok ())) : WriteSpec t t' n r v := by
  rcases setVal_cases h n r v hv with ⟨ci, ri, ty, hc, rfl, hty, hri, hht, e⟩ | ⟨_, e, he⟩
  · rw [e] at hok; cases hok; exact putCell_writeSpec h hc hty hri hht
  · rw [he] at hok; cases hok

/-- **C03** for `SetValByColIndex`, where `n` is the name of column `c`. -/
theorem C03_setValByColIndex (t t' : Table τ) (h : WF t) (c r : Int) (v : Cell τ) (hv : v.Real)
    (hok : t.setValByColIndex c r v = (t', .ok ())) :
    ∃ n, t.colName c = .ok n ∧ WriteSpec t t' n r v ∧ t'.getValByColIndex c r = .ok v := by
  rcases setValByColIndex_cases h c r v hv with ⟨ci, ri, ty, rfl, rfl, hty, hri, hht, e⟩ | ⟨_, e, he⟩
  · rw [e] at hok; cases hok
    have hlt : ci < t.colNames.length := by rw [← h.typesLen]; exact (List.getElem?_eq_some_iff.1 hty).1
    have hc : t.colNames[ci]? = some t.colNames[ci] := List.getElem?_eq_getElem hlt
    have hw := putCell_writeSpec h hc hty hri hht
    refine ⟨t.colNames[ci], ?_, hw, ?_⟩
    · exact colName_nat hc
    · obtain ⟨row, x, h1, h2, h3⟩ := getValByColIndex_nat hw.2.2.2.2 (c := ci) (r := ri) (by simpa [putCell] using hlt)
        (by simpa [putCell] using hri)
      rw [h3]
      have hat : At (putCell t ci ri v) t.colNames[ci] ri x := ⟨ci, row, hc, h1, h2⟩
      rw [At_unique hw.2.2.2.2 hat (At_putCell_self h hc hri v)]
  · rw [he] at hok; cases hok

/-- **C03** for the typed setters `Set<type>`. -/
theorem C03_setTyped (t t' : Table τ) (h : WF t) (vt : ColType) (n : GoStr) (r : Int) (v : Cell τ) (hv : v.HasType vt)
    (hok : t.setTyped vt n r v = (t', .ok ())) : WriteSpec t t' n r v ∧ t'.getTyped vt n r = .ok v := by
  have hok0 := hok
  rcases setTyped_cases h vt n r v hv with ⟨ci, ri, ty, hc, rfl, hty, hri, hht, _, e⟩ | ⟨_, e, he⟩
  · rw [e] at hok; cases hok
    have hw := putCell_writeSpec h hc hty hri hht
    refine ⟨hw, ?_⟩
    have hlt := (List.getElem?_eq_some_iff.1 hc).1
    have h' := hw.2.2.2.2
    have h1 : (putCell t ci ri v).colType n = .ok ty := by
      simp [colType, putCell, (h.mapIff n ci).2 hc, hty]
    have h2 : (putCell t ci ri v).colIndex n = .ok ci := h'.colIndex_ok.2 hc
    have h3 : (putCell t ci ri v).hasRow (ri : Int) = .ok () := hasRow_ok.2 ⟨by omega, by rw [putCell_rows_length]; omega⟩
    have hor := hasType_types hv hht
    have hor2 : ¬ (vt ≠ ty ∧ isAlias ty vt = false) := by
      rintro ⟨a, b⟩
      rcases hor with e | e
      · exact a e
      · rw [b] at e; cases e
    have h4 : (putCell t ci ri v).getCell? (ci : Int) (ri : Int) = some v := by
      obtain ⟨j, row, hj, hrow, hx⟩ := At_putCell_self h hc hri v
      have := h'.map_unique hc hj
      subst this
      exact getCell?_some.2 ⟨row, by omega, by omega, by simpa using hrow, by simpa using hx⟩
    simp only [getTyped, h1, Out.bind, if_neg hor2, h2, h3, h4]
    exact typeAssert_of_hasType hv (.inl rfl)
  · rw [he] at hok; cases hok

/-- **C03** for the typed setters `Set<type>ByColIndex`. -/
theorem C03_setTypedByColIndex (t t' : Table τ) (h : WF t) (vt : ColType) (c r : Int) (v : Cell τ) (hv : v.HasType vt)
    (hok : t.setTypedByColIndex vt c r v = (t', .ok ())) : ∃ n, t.colName c = .ok n ∧ WriteSpec t t' n r v := by
  rcases setTypedByColIndex_cases h vt c r v hv with ⟨ci, ri, ty, rfl, rfl, hty, hri, hht, _, e⟩ | ⟨_, _, e, he⟩ | ⟨_, _, he⟩
  · rw [e] at hok; cases hok
    have hlt : ci < t.colNames.length := by rw [← h.typesLen]; exact (List.getElem?_eq_some_iff.1 hty).1
    have hc : t.colNames[ci]? = some t.colNames[ci] := List.getElem?_eq_getElem hlt
    exact ⟨t.colNames[ci], colName_nat hc, putCell_writeSpec h hc hty hri hht⟩
  · rw [he] at hok; cases hok
  · rw [he] at hok; cases hok

-- The hypotheses are met by a write to the example table.
example : ∃ t', Ex.t.setVal (gs! "age") 1 (.int .int 5) = (t', .ok ()) ∧
    WriteSpec Ex.t t' (gs! "age") 1 (.int .int 5) :=
  ⟨_, rfl, C03_setVal _ _ Ex.wf _ _ _ (by simp [Cell.Real, IntKind.lo, IntKind.hi]) rfl⟩

example : (Ex.t.setTyped .int (gs! "age") 2 (.int .int 5)).2 = .ok () := by decide +kernel
example : (Ex.t.setTypedByColIndex .float64 2 0 (.f64 7)).2 = .ok () := by decide +kernel
example : (Ex.t.setValByColIndex 0 0 (.str [1, 2])).2 = .ok () := by decide +kernel

end Verif
