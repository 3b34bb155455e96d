import Verif.Model.Core
import Verif.Spec.WF
import Verif.Lemmas.Basic

/-! # Helper lemmas about the core table operations -/

namespace Verif
open Table

variable {τ : Type}

/-! ## Types -/

theorem ofName?_name (ty : ColType) : ColType.ofName? ty.name = some ty := by
  cases ty <;> decide

theorem ofName?_some {s : GoStr} {ty : ColType} (h : ColType.ofName? s = some ty) : ty.name = s := by
  have := List.find?_some h
  simpa using this

/-- The dynamic type check of the setters is exactly membership in the column type. -/
theorem hasType_iff {ty : ColType} {v : Cell τ} :
    v.HasType ty ↔ v.Real ∧ v ≠ .tbl none ∧ ∃ d, v.dynType = some d ∧ (d = ty ∨ isAlias ty d = true) := by
  cases v with
  | int k v => cases k <;> cases ty <;> simp [Cell.HasType, Cell.Real, Cell.dynType, isAlias, ColType.alias?, IntKind.lo, IntKind.hi]
  | tbl o => cases o <;> cases ty <;> simp [Cell.HasType, Cell.Real, Cell.dynType, isAlias, ColType.alias?]
  | _ => cases ty <;> simp [Cell.HasType, Cell.Real, Cell.dynType, isAlias, ColType.alias?]

theorem hasType_congr {ty ty' : ColType} {v : Cell τ} (h : ty' = ty ∨ isAlias ty ty' = true)
    (hv : v.HasType ty') : v.HasType ty := by
  rcases h with rfl | h
  · exact hv
  · cases v with
    | int k v => cases k <;> cases ty <;> cases ty' <;> simp_all [Cell.HasType, isAlias, ColType.alias?]
    | tbl o => cases o <;> cases ty <;> cases ty' <;> simp_all [Cell.HasType, isAlias, ColType.alias?]
    | _ => cases ty <;> cases ty' <;> simp_all [Cell.HasType, isAlias, ColType.alias?]

theorem hasType_not_nil {ty : ColType} {v : Cell τ} (h : v.HasType ty) : v ≠ .nil := by
  rintro rfl; cases ty <;> simp [Cell.HasType] at h

theorem zeroCell_hasType (nt : τ) (ty : ColType) : (zeroCell nt ty).HasType ty := by
  cases ty <;> simp [zeroCell, Cell.HasType]

theorem typeAssert_of_hasType {ty ty' : ColType} {v : Cell τ} (h : v.HasType ty)
    (h' : ty' = ty ∨ isAlias ty ty' = true) : typeAssert ty' v = .ok v := by
  cases v with
  | int k v => cases k <;> cases ty <;> cases ty' <;>
      simp_all [Cell.HasType, isAlias, ColType.alias?, typeAssert, Cell.dynType]
  | tbl o => cases o <;> cases ty <;> cases ty' <;>
      simp_all [Cell.HasType, isAlias, ColType.alias?, typeAssert, Cell.dynType]
  | _ => cases ty <;> cases ty' <;>
      simp_all [Cell.HasType, isAlias, ColType.alias?, typeAssert, Cell.dynType]

/-! ## Rows -/

theorem RowOK.set {types : List ColType} {row : List (Cell τ)} (h : RowOK types row) {i : Nat} {ty : ColType}
    {v : Cell τ} (hty : types[i]? = some ty) (hv : v.HasType ty) : RowOK types (row.set i v) := by
  refine ⟨by simp [h.1], ?_⟩
  intro j ty' c hj hc
  rw [List.getElem?_set] at hc
  split at hc
  · rename_i e; subst e
    rw [hty] at hj; cases hj
    split at hc
    · cases hc; exact hv
    · cases hc
  · exact h.2 j ty' c hj hc

theorem RowOK.append {types : List ColType} {row : List (Cell τ)} (h : RowOK types row) {ty : ColType}
    {v : Cell τ} (hv : v.HasType ty) : RowOK (types ++ [ty]) (row ++ [v]) := by
  refine ⟨by simp [h.1], ?_⟩
  intro j ty' c hj hc
  rw [List.getElem?_append] at hj hc
  rw [h.1] at hc
  split at hj
  · rename_i hl; rw [if_pos hl] at hc; exact h.2 j ty' c hj hc
  · rename_i hl; rw [if_neg hl] at hc
    have h1 : j - types.length = 0 := by
      rcases Nat.eq_zero_or_pos (j - types.length) with h0 | h0
      · exact h0
      · rw [List.getElem?_eq_none (by simp; omega)] at hj; cases hj
    rw [h1] at hj hc; simp at hj hc; subst hj; subst hc; exact hv

/-! ## Cell assignment -/

theorem setCell?_some {t t' : Table τ} {c r : Int} {v : Cell τ} :
    t.setCell? c r v = some t' ↔
      ∃ row, 0 ≤ r ∧ 0 ≤ c ∧ t.rows[r.toNat]? = some row ∧ c.toNat < row.length ∧
        t' = { t with rows := t.rows.set r.toNat (row.set c.toNat v) } := by
  simp only [setCell?]
  constructor
  · intro h
    split at h
    · cases h
    · rename_i row hrow
      split at h
      · cases h
      · rename_i row' hrow'
        split at h
        · cases h
        · rename_i rows' hrows'
          rw [goGet?_some] at hrow
          rw [goSet?_some] at hrow' hrows'
          refine ⟨row, hrow.1, hrow'.1, hrow.2, hrow'.2.1, ?_⟩
          cases h; simp [hrows'.2.2, hrow'.2.2]
  · rintro ⟨row, hr, hc, hrow, hlt, rfl⟩
    have h1 : goGet? t.rows r = some row := goGet?_some.2 ⟨hr, hrow⟩
    have h2 : goSet? row c v = some (row.set c.toNat v) := goSet?_some.2 ⟨hc, hlt, rfl⟩
    have h3 : goSet? t.rows r (row.set c.toNat v) = some (t.rows.set r.toNat (row.set c.toNat v)) :=
      goSet?_some.2 ⟨hr, (List.getElem?_eq_some_iff.1 hrow).1, rfl⟩
    simp [h1, h2, h3]

theorem setCell?_nat {t : Table τ} {c r : Nat} {v : Cell τ} {row : List (Cell τ)}
    (hrow : t.rows[r]? = some row) (hc : c < row.length) :
    t.setCell? (c : Int) (r : Int) v = some { t with rows := t.rows.set r (row.set c v) } :=
  setCell?_some.2 ⟨row, by omega, by omega, by simpa using hrow, by simpa using hc, by simp⟩

theorem getCell?_some {t : Table τ} {c r : Int} {v : Cell τ} :
    t.getCell? c r = some v ↔ ∃ row, 0 ≤ r ∧ 0 ≤ c ∧ t.rows[r.toNat]? = some row ∧ row[c.toNat]? = some v := by
  simp only [getCell?]
  constructor
  · intro h
    split at h
    · cases h
    · rename_i row hrow
      rw [goGet?_some] at hrow h
      exact ⟨row, hrow.1, h.1, hrow.2, h.2⟩
  · rintro ⟨row, hr, hc, hrow, hv⟩
    rw [goGet?_some.2 ⟨hr, hrow⟩]
    exact goGet?_some.2 ⟨hc, hv⟩

/-- Replacing rows by rows of the same types keeps a table well-formed. -/
theorem WF.withRows {t : Table τ} (h : WF t) (rows : List (List (Cell τ)))
    (hrows : ∀ row ∈ rows, RowOK t.colTypes row) (hnil : t.isNilTable = true → rows = []) :
    WF { t with rows := rows } where
  namesNodup := h.namesNodup
  namesValid := h.namesValid
  typesLen := h.typesLen
  mapKeys := h.mapKeys
  mapIff := h.mapIff
  rowsOK := hrows
  nilEmpty := fun e => ⟨(h.nilEmpty e).1, hnil e⟩
  nameValid := h.nameValid
  keysOK := h.keysOK

theorem WF.rowLen {t : Table τ} (h : WF t) {r : Nat} {row : List (Cell τ)} (hr : t.rows[r]? = some row) :
    row.length = t.colNames.length := by
  rw [(h.rowsOK row (List.mem_of_getElem? hr)).1, h.typesLen]

theorem WF.setCell {t t' : Table τ} (h : WF t) {c r : Int} {v : Cell τ} {ty : ColType}
    (hty : t.colTypes[c.toNat]? = some ty) (hv : v.HasType ty)
    (hs : t.setCell? c r v = some t') : WF t' := by
  obtain ⟨row, hr, hc, hrow, hlt, rfl⟩ := setCell?_some.1 hs
  refine h.withRows _ ?_ ?_
  · intro row' hmem
    rcases List.mem_or_eq_of_mem_set hmem with h1 | h1
    · exact h.rowsOK row' h1
    · subst h1; exact (h.rowsOK row (List.mem_of_getElem? hrow)).set hty hv
  · intro e; rw [(h.nilEmpty e).2] at hrow; simp at hrow

/-! ## Lookup -/

theorem WF.map_unique {t : Table τ} (h : WF t) {i j : Nat} {n : GoStr} (hi : t.colNames[i]? = some n)
    (hj : t.colNames[j]? = some n) : i = j := by
  have h1 := (h.mapIff n i).2 hi
  have h2 := (h.mapIff n j).2 hj
  rw [h1] at h2; exact Option.some.inj h2

theorem WF.get?_isSome {t : Table τ} (h : WF t) {n : GoStr} : (∃ i, t.colMap.get? n = some i) ↔ n ∈ t.colNames := by
  constructor
  · rintro ⟨i, hi⟩; exact List.mem_of_getElem? ((h.mapIff n i).1 hi)
  · intro hn
    obtain ⟨i, hi⟩ := List.getElem?_of_mem hn
    exact ⟨i, (h.mapIff n i).2 hi⟩

theorem WF.get?_none {t : Table τ} (h : WF t) {n : GoStr} : t.colMap.get? n = none ↔ n ∉ t.colNames := by
  rw [← h.get?_isSome]; cases t.colMap.get? n <;> simp

theorem WF.type_of_name {t : Table τ} (h : WF t) {i : Nat} {n : GoStr} (hi : t.colNames[i]? = some n) :
    ∃ ty, t.colTypes[i]? = some ty := by
  have hl := (List.getElem?_eq_some_iff.1 hi).1
  exact ⟨t.colTypes[i]'(by rw [h.typesLen]; exact hl), List.getElem?_eq_getElem _⟩

theorem colIndex_ok {t : Table τ} {n : GoStr} {i : Nat} : t.colIndex n = .ok i ↔ t.colMap.get? n = some i := by
  simp only [Table.colIndex]; split <;> simp_all

theorem WF.colIndex_ok {t : Table τ} (h : WF t) {n : GoStr} {i : Nat} :
    t.colIndex n = .ok i ↔ t.colNames[i]? = some n := by
  rw [Verif.colIndex_ok, h.mapIff]

theorem WF.colIndex_err {t : Table τ} (h : WF t) {n : GoStr} (hn : n ∉ t.colNames) :
    t.colIndex n = .err .noCol := by
  simp [Table.colIndex, h.get?_none.2 hn]

theorem WF.colIndex_cases {t : Table τ} (h : WF t) (n : GoStr) :
    (∃ i, t.colNames[i]? = some n ∧ t.colIndex n = .ok i) ∨ (n ∉ t.colNames ∧ t.colIndex n = .err .noCol) := by
  by_cases hn : n ∈ t.colNames
  · obtain ⟨i, hi⟩ := List.getElem?_of_mem hn
    exact .inl ⟨i, hi, h.colIndex_ok.2 hi⟩
  · exact .inr ⟨hn, h.colIndex_err hn⟩

theorem WF.hasCol_ok {t : Table τ} (h : WF t) {n : GoStr} (hn : n ∈ t.colNames) : t.hasCol n = .ok () := by
  obtain ⟨i, hi⟩ := List.getElem?_of_mem hn
  obtain ⟨ty, hty⟩ := h.type_of_name hi
  simp [hasCol, getColInfo, (h.mapIff n i).2 hi, hty, Out.bind]

theorem WF.hasCol_err {t : Table τ} (h : WF t) {n : GoStr} (hn : n ∉ t.colNames) : t.hasCol n = .err .noCol := by
  simp [hasCol, getColInfo, h.get?_none.2 hn, Out.bind]

theorem hasRow_ok {t : Table τ} {r : Int} : t.hasRow r = .ok () ↔ 0 ≤ r ∧ r < t.rows.length := by
  simp only [hasRow]; split
  · simp; omega
  · simp; omega

theorem hasRow_cases (t : Table τ) (r : Int) :
    (0 ≤ r ∧ r < t.rows.length ∧ t.hasRow r = .ok ()) ∨
    (¬ (0 ≤ r ∧ r < t.rows.length) ∧ t.hasRow r = .err .noRow) := by
  simp only [hasRow]; split
  · right; exact ⟨by omega, rfl⟩
  · left; exact ⟨by omega, by omega, rfl⟩

theorem colTypeByColIndex_ok {t : Table τ} {c : Int} {ty : ColType} :
    t.colTypeByColIndex c = .ok ty ↔ 0 ≤ c ∧ t.colTypes[c.toNat]? = some ty := by
  simp only [colTypeByColIndex]
  split
  · rename_i h
    constructor
    · intro e; cases e
    · rintro ⟨h1, h2⟩
      have := (List.getElem?_eq_some_iff.1 h2).1
      omega
  · rw [← goGet?_some]; split <;> simp_all

theorem colTypeByColIndex_cases (t : Table τ) (c : Int) :
    (∃ ty, 0 ≤ c ∧ c < t.colTypes.length ∧ t.colTypes[c.toNat]? = some ty ∧ t.colTypeByColIndex c = .ok ty) ∨
    (¬ (0 ≤ c ∧ c < t.colTypes.length) ∧ t.colTypeByColIndex c = .err .noCol) := by
  by_cases h : 0 ≤ c ∧ c < t.colTypes.length
  · left
    have hlt : c.toNat < t.colTypes.length := by omega
    refine ⟨t.colTypes[c.toNat], h.1, h.2, List.getElem?_eq_getElem hlt, ?_⟩
    exact colTypeByColIndex_ok.2 ⟨h.1, List.getElem?_eq_getElem hlt⟩
  · right
    refine ⟨h, ?_⟩
    simp only [colTypeByColIndex]; rw [if_pos]; omega

end Verif
