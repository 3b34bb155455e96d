import Verif.Lemmas.Reorder

/-! # What the cells of a changed table are -/

namespace Verif
open Table

variable {τ : Type}

theorem putCell_header (t : Table τ) (c r : Nat) (v : Cell τ) : SameHeader t (putCell t c r v) := by
  simp [SameHeader, putCell]

theorem putCell_rows_length (t : Table τ) (c r : Nat) (v : Cell τ) : (putCell t c r v).rows.length = t.rows.length := by
  simp [putCell]

theorem At_putCell_self {t : Table τ} (h : WF t) {c r : Nat} {n : GoStr} (hc : t.colNames[c]? = some n)
    (hr : r < t.rows.length) (v : Cell τ) : At (putCell t c r v) n r v := by
  have hlt := (List.getElem?_eq_some_iff.1 hc).1
  have hrow : t.rows[r]? = some t.rows[r] := List.getElem?_eq_getElem hr
  refine ⟨c, t.rows[r].set c v, hc, ?_, ?_⟩
  · simp [putCell, hr]
  · have := h.rowLen hrow
    simp [this, hlt]

theorem At_putCell_other {t : Table τ} (h : WF t) {c r : Nat} {n : GoStr} (hc : t.colNames[c]? = some n) (v : Cell τ)
    {n' : GoStr} {r' : Nat} (hne : ¬ (n' = n ∧ r' = r)) (x : Cell τ) : At (putCell t c r v) n' r' x ↔ At t n' r' x := by
  have key : ∀ (i : Nat) (row : List (Cell τ)), t.colNames[i]? = some n' →
      (r = r' → (row.set c v)[i]? = row[i]?) := by
    intro i row hi e
    have hci : c ≠ i := by
      rintro rfl
      rw [hc] at hi; cases hi
      exact hne ⟨rfl, e.symm⟩
    rw [List.getElem?_set_ne hci]
  constructor
  · rintro ⟨i, row, hi, hrow, hx⟩
    simp only [putCell] at hi hrow
    rw [List.getElem?_modify] at hrow
    split at hrow
    · rename_i e
      simp only [Option.map_eq_map, Option.map_eq_some_iff] at hrow
      obtain ⟨row', h1, rfl⟩ := hrow
      rw [key i row' hi e] at hx
      exact ⟨i, row', hi, h1, hx⟩
    · exact ⟨i, row, hi, by simpa using hrow, hx⟩
  · rintro ⟨i, row, hi, hrow, hx⟩
    by_cases e : r = r'
    · refine ⟨i, row.set c v, hi, ?_, ?_⟩
      · simp [putCell, List.getElem?_modify, e, hrow]
      · rw [key i row hi e]; exact hx
    · exact ⟨i, row, hi, by simp [putCell, List.getElem?_modify, e, hrow], hx⟩

theorem At_unique {t : Table τ} (h : WF t) {n : GoStr} {r : Nat} {v w : Cell τ} (hv : At t n r v) (hw : At t n r w) : v = w := by
  obtain ⟨i, row, hi, hrow, hvi⟩ := hv
  obtain ⟨j, row', hj, hrow', hwj⟩ := hw
  have := h.map_unique hi hj
  subst this
  rw [hrow] at hrow'; cases hrow'
  rw [hvi] at hwj; exact Option.some.inj hwj

theorem At_exists {t : Table τ} (h : WF t) {n : GoStr} {r : Nat} (hn : n ∈ t.colNames) (hr : r < t.rows.length) :
    ∃ v, At t n r v := by
  obtain ⟨i, hi⟩ := List.getElem?_of_mem hn
  have hlt := (List.getElem?_eq_some_iff.1 hi).1
  obtain ⟨row, v, h1, h2, _⟩ := getValByColIndex_nat h hlt hr
  exact ⟨v, i, row, hi, h1, h2⟩

theorem At_bound {t : Table τ} {n : GoStr} {r : Nat} {v : Cell τ} (h : At t n r v) : n ∈ t.colNames ∧ r < t.rows.length := by
  obtain ⟨i, row, hi, hrow, _⟩ := h
  exact ⟨List.mem_of_getElem? hi, (List.getElem?_eq_some_iff.1 hrow).1⟩

/-- `GetVal` of two tables agrees where their cells agree. -/
theorem getVal_congr {t t' : Table τ} (h : WF t) (h' : WF t') {n n' : GoStr} {r r' : Nat}
    (hc : ∀ x, At t n r x ↔ At t' n' r' x) (x : Cell τ) : t.getVal n r = .ok x ↔ t'.getVal n' r' = .ok x := by
  rw [getVal_ok_iff h, getVal_ok_iff h']
  constructor
  · rintro ⟨r1, e, hx⟩
    have : r = r1 := by omega
    subst this
    exact ⟨r', rfl, (hc x).1 hx⟩
  · rintro ⟨r1, e, hx⟩
    have : r' = r1 := by omega
    subst this
    exact ⟨r, rfl, (hc x).2 hx⟩

/-- The exact outcome of `GetVal` outside the table. -/
theorem getVal_outside {t : Table τ} (h : WF t) {n : GoStr} {r : Int}
    (hno : ¬ (n ∈ t.colNames ∧ 0 ≤ r ∧ r < t.rows.length)) :
    t.getVal n r = .err (if t.isNilTable then .nilTable else if n ∈ t.colNames then .noRow else .noCol) := by
  simp only [getVal]
  cases hnil : t.isNilTable
  · simp only [Bool.false_eq_true, if_false]
    rcases h.colIndex_cases n with ⟨i, hi, hix⟩ | ⟨hi, hix⟩
    · have hm := List.mem_of_getElem? hi
      have : t.hasRow r = .err .noRow := by
        rcases hasRow_cases t r with ⟨a, b, _⟩ | ⟨_, e⟩
        · exact absurd ⟨hm, a, b⟩ hno
        · exact e
      simp [hix, Out.bind, getValByColIndex, this, hm, hnil]
    · simp [hix, Out.bind, hi]
  · simp

theorem colName_nat {t : Table τ} {c : Nat} {n : GoStr} (hc : t.colNames[c]? = some n) : t.colName (c : Int) = .ok n := by
  have hlt := (List.getElem?_eq_some_iff.1 hc).1
  have : t.colName (c : Int) = match goGet? t.colNames (c : Int) with
    | some n => .ok n
    | none => .panic := if_neg (by simp only [colCount]; omega)
  rw [this, goGet?_nat, hc]

theorem zeroCell_isZero (nt : τ) (ty : ColType) : Cell.IsZero ty (zeroCell nt ty) := by
  cases ty <;> simp [Cell.IsZero, zeroCell]

/-- Cells after the columns were reordered. -/
theorem At_reorderTable {t : Table τ} (h : WF t) {σ : List Nat} (hσ : σ.Perm (List.range t.colNames.length))
    (n : GoStr) (r : Nat) (x : Cell τ) : At (reorderTable t σ) n r x ↔ At t n r x := by
  have hlt := perm_range_lt hσ
  have hrl : ∀ row ∈ t.rows, ∀ i ∈ σ, i < row.length := by
    intro row hrow
    rw [(h.rowsOK row hrow).1, h.typesLen]; exact hlt
  constructor
  · rintro ⟨i, row, hi, hrow, hx⟩
    simp only [reorderTable, List.getElem?_map, Option.map_eq_some_iff] at hi hrow
    obtain ⟨row', h1, rfl⟩ := hrow
    rw [pick_getElem? _ _ hlt] at hi
    rw [pick_getElem? _ _ (hrl row' (List.mem_of_getElem? h1))] at hx
    rcases hk : σ[i]? with _ | k
    · simp [hk] at hi
    · simp only [hk, Option.bind_some] at hi hx
      exact ⟨k, row', hi, h1, hx⟩
  · rintro ⟨k, row, hk, hrow, hx⟩
    have hkl := (List.getElem?_eq_some_iff.1 hk).1
    have : k ∈ σ := hσ.mem_iff.2 (by simpa using hkl)
    obtain ⟨i, hi⟩ := List.getElem?_of_mem this
    refine ⟨i, pick σ row, ?_, by simp [reorderTable, hrow], ?_⟩
    · simp only [reorderTable]; rw [pick_getElem? _ _ hlt, hi]; exact hk
    · rw [pick_getElem? _ _ (hrl row (List.mem_of_getElem? hrow)), hi]; exact hx

theorem HasColT_reorderTable {t : Table τ} (h : WF t) {σ : List Nat} (hσ : σ.Perm (List.range t.colNames.length))
    (n : GoStr) (ty : ColType) : HasColT (reorderTable t σ) n ty ↔ HasColT t n ty := by
  have hlt := perm_range_lt hσ
  have hlt2 : ∀ i ∈ σ, i < t.colTypes.length := by rw [h.typesLen]; exact hlt
  constructor
  · rintro ⟨i, hi, hty⟩
    simp only [reorderTable] at hi hty
    rw [pick_getElem? _ _ hlt] at hi
    rw [pick_getElem? _ _ hlt2] at hty
    rcases hk : σ[i]? with _ | k
    · simp [hk] at hi
    · simp only [hk, Option.bind_some] at hi hty
      exact ⟨k, hi, hty⟩
  · rintro ⟨k, hk, hty⟩
    have hkl := (List.getElem?_eq_some_iff.1 hk).1
    have : k ∈ σ := hσ.mem_iff.2 (by simpa using hkl)
    obtain ⟨i, hi⟩ := List.getElem?_of_mem this
    refine ⟨i, ?_, ?_⟩
    · simp only [reorderTable]; rw [pick_getElem? _ _ hlt, hi]; exact hk
    · simp only [reorderTable]; rw [pick_getElem? _ _ hlt2, hi]; exact hty

theorem HasColT.unique {t : Table τ} (h : WF t) {n : GoStr} {ty ty' : ColType} (h1 : HasColT t n ty) (h2 : HasColT t n ty') :
    ty = ty' := by
  obtain ⟨i, a1, a2⟩ := h1
  obtain ⟨j, b1, b2⟩ := h2
  have := h.map_unique a1 b1; subst this
  rw [a2] at b2; exact Option.some.inj b2

end Verif
