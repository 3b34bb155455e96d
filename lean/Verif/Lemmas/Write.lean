import Verif.Lemmas.Append

/-! # Cell writes: what each setter does -/

namespace Verif
open Table

variable {τ : Type}

/-- The table with cell `(c, r)` replaced. -/
def putCell (t : Table τ) (c r : Nat) (v : Cell τ) : Table τ :=
  { t with rows := t.rows.modify r (fun row => row.set c v) }

theorem setCell?_eq {t : Table τ} (h : WF t) {c r : Nat} (hc : c < t.colNames.length) (hr : r < t.rows.length)
    (v : Cell τ) : t.setCell? (c : Int) (r : Int) v = some (putCell t c r v) := by
  have hrow : t.rows[r]? = some t.rows[r] := List.getElem?_eq_getElem hr
  rw [setCell?_nat hrow (by rw [h.rowLen hrow]; exact hc)]
  simp only [putCell, Option.some.injEq, Table.mk.injEq, true_and, and_true]
  apply List.ext_getElem?
  intro i
  rw [List.getElem?_set, List.getElem?_modify]
  split
  · rename_i e; subst e; simp [hr]
  · simp [*]

theorem WF.putCell {t : Table τ} (h : WF t) {c r : Nat} {v : Cell τ} {ty : ColType}
    (hty : t.colTypes[c]? = some ty) (hv : v.HasType ty) (hr : r < t.rows.length) : WF (putCell t c r v) := by
  have hc : c < t.colNames.length := by rw [← h.typesLen]; exact (List.getElem?_eq_some_iff.1 hty).1
  exact h.setCell (c := (c : Int)) (r := (r : Int)) (by simpa using hty) hv (setCell?_eq h hc hr v)

/-- Result of a checked write by position: written, or refused with an error and unchanged. -/
theorem setValByColIndex_cases {t : Table τ} (h : WF t) (c r : Int) (v : Cell τ) (hv : v.Real) :
    (∃ (ci ri : Nat) (ty : ColType), c = ci ∧ r = ri ∧ t.colTypes[ci]? = some ty ∧ ri < t.rows.length ∧ v.HasType ty ∧
      t.setValByColIndex c r v = (putCell t ci ri v, .ok ())) ∨
    (¬ (∃ (ci ri : Nat) (ty : ColType), c = ci ∧ r = ri ∧ t.colTypes[ci]? = some ty ∧ ri < t.rows.length ∧ v.HasType ty) ∧
      ∃ e, t.setValByColIndex c r v = (t, .err e)) := by
  rcases hd : v.dynType with _ | d
  · right
    refine ⟨?_, .nilVal, by simp [setValByColIndex, hd]⟩
    rintro ⟨_, _, ty, _, _, _, _, hht⟩
    obtain ⟨_, _, d, hd', _⟩ := hasType_iff.1 hht
    rw [hd] at hd'; cases hd'
  by_cases hn : v = .tbl none
  · subst hn
    right
    refine ⟨?_, .nilVal, by simp [setValByColIndex, Cell.dynType]⟩
    rintro ⟨_, _, ty, _, _, _, _, hht⟩
    exact (hasType_iff.1 hht).2.1 rfl
  have e0 : t.setValByColIndex c r v =
      match t.hasRow r with
      | .err e => (t, .err e)
      | .panic => (t, .panic)
      | .ok () =>
        match t.colTypeByColIndex c with
        | .err e => (t, .err e)
        | .panic => (t, .panic)
        | .ok colType =>
          if d ≠ colType ∧ isAlias colType d = false then (t, .err .typeMismatch)
          else
            match t.setCell? c r v with
            | none => (t, .panic)
            | some t' => (t', .ok ()) := by
    simp only [setValByColIndex, hd]
    cases v with
    | tbl o => cases o with
      | none => exact absurd rfl hn
      | some x => rfl
    | _ => rfl
  rw [e0]
  rcases hasRow_cases t r with ⟨hr0, hr1, hrow⟩ | ⟨hr, hrow⟩
  · rw [hrow]
    rcases colTypeByColIndex_cases t c with ⟨ty, hc0, hc1, hty, hct⟩ | ⟨hc, hct⟩
    · rw [hct]
      by_cases hm : d ≠ ty ∧ isAlias ty d = false
      · right
        refine ⟨?_, .typeMismatch, by simp only [if_pos hm]⟩
        rintro ⟨ci, ri, ty', rfl, rfl, hty', _, hht⟩
        have hty2 : t.colTypes[ci]? = some ty := by simpa using hty
        rw [hty2] at hty'; cases hty'
        obtain ⟨_, _, d', hd', hor⟩ := hasType_iff.1 hht
        rw [hd] at hd'; cases hd'
        rcases hor with rfl | h1
        · exact hm.1 rfl
        · rw [hm.2] at h1; cases h1
      · left
        obtain ⟨ci, rfl⟩ := Int.eq_ofNat_of_zero_le hc0
        obtain ⟨ri, rfl⟩ := Int.eq_ofNat_of_zero_le hr0
        have hri : ri < t.rows.length := by omega
        have hci : ci < t.colNames.length := by rw [← h.typesLen]; omega
        refine ⟨ci, ri, ty, rfl, rfl, by simpa using hty, hri, ?_, ?_⟩
        · refine hasType_iff.2 ⟨hv, hn, d, hd, ?_⟩
          by_cases h1 : d = ty
          · exact .inl h1
          · right; cases h2 : isAlias ty d
            · exact absurd ⟨h1, h2⟩ hm
            · rfl
        · simp only [if_neg hm]; rw [setCell?_eq h hci hri v]
    · right
      refine ⟨?_, .noCol, by rw [hct]⟩
      rintro ⟨ci, ri, ty', rfl, rfl, hty', _, _⟩
      exact hc ⟨by omega, by have := (List.getElem?_eq_some_iff.1 hty').1; omega⟩
  · right
    refine ⟨?_, .noRow, by rw [hrow]⟩
    rintro ⟨ci, ri, ty', rfl, rfl, _, hri, _⟩
    exact hr ⟨by omega, by omega⟩

theorem setVal_cases {t : Table τ} (h : WF t) (n : GoStr) (r : Int) (v : Cell τ) (hv : v.Real) :
    (∃ (ci ri : Nat) (ty : ColType), t.colNames[ci]? = some n ∧ r = ri ∧ t.colTypes[ci]? = some ty ∧ ri < t.rows.length ∧
      v.HasType ty ∧ t.setVal n r v = (putCell t ci ri v, .ok ())) ∨
    (¬ (∃ (ci ri : Nat) (ty : ColType), t.colNames[ci]? = some n ∧ r = ri ∧ t.colTypes[ci]? = some ty ∧
        ri < t.rows.length ∧ v.HasType ty) ∧
      ∃ e, t.setVal n r v = (t, .err e)) := by
  by_cases hnil : v = .nil ∨ v = .tbl none
  · right
    refine ⟨?_, .nilVal, by rcases hnil with rfl | rfl <;> rfl⟩
    rintro ⟨_, _, ty, _, _, _, _, hht⟩
    rcases hnil with rfl | rfl
    · exact hasType_not_nil hht rfl
    · exact (hasType_iff.1 hht).2.1 rfl
  have e0 : t.setVal n r v = match t.colIndex n with
      | .err e => (t, .err e)
      | .panic => (t, .panic)
      | .ok ci => t.setValByColIndex ci r v := by
    simp only [not_or] at hnil
    cases v with
    | nil => exact absurd rfl hnil.1
    | tbl o => cases o with
      | none => exact absurd rfl hnil.2
      | some x => rfl
    | _ => rfl
  rw [e0]
  rcases h.colIndex_cases n with ⟨i, hi, hix⟩ | ⟨hi, hix⟩
  · rw [hix]
    rcases setValByColIndex_cases h i r v hv with ⟨ci, ri, ty, hc, rfl, hty, hri, hht, e⟩ | ⟨hno, e, he⟩
    · left
      have : i = ci := by omega
      subst this
      exact ⟨i, ri, ty, hi, rfl, hty, hri, hht, e⟩
    · right
      refine ⟨?_, e, he⟩
      rintro ⟨ci, ri, ty, hci, hr, hty, hri, hht⟩
      have := h.map_unique hi hci
      subst this
      exact hno ⟨i, ri, ty, rfl, hr, hty, hri, hht⟩
  · right
    rw [hix]
    refine ⟨?_, .noCol, rfl⟩
    rintro ⟨ci, ri, ty, hci, _⟩
    exact hi (List.mem_of_getElem? hci)

/-- A value fits two column types only if they are the same or aliases. -/
theorem hasType_types {a b : ColType} {v : Cell τ} (h1 : v.HasType a) (h2 : v.HasType b) : a = b ∨ isAlias b a = true := by
  cases v with
  | int k v => cases k <;> cases a <;> first | exact h1.elim | (cases b <;> first | exact h2.elim | decide)
  | tbl o => cases o <;> cases a <;> first | exact h1.elim | (cases b <;> first | exact h2.elim | decide)
  | _ => cases a <;> first | exact h1.elim | (cases b <;> first | exact h2.elim | decide)

/-- The typed setters, by name. -/
theorem setTyped_cases {t : Table τ} (h : WF t) (vt : ColType) (n : GoStr) (r : Int) (v : Cell τ) (hv : v.HasType vt) :
    (∃ (ci ri : Nat) (ty : ColType), t.colNames[ci]? = some n ∧ r = ri ∧ t.colTypes[ci]? = some ty ∧ ri < t.rows.length ∧
      v.HasType ty ∧ v ≠ .bytes none ∧ t.setTyped vt n r v = (putCell t ci ri v, .ok ())) ∨
    (¬ (∃ (ci ri : Nat) (ty : ColType), t.colNames[ci]? = some n ∧ r = ri ∧ t.colTypes[ci]? = some ty ∧
        ri < t.rows.length ∧ v.HasType ty ∧ v ≠ .bytes none) ∧
      ∃ e, t.setTyped vt n r v = (t, .err e)) := by
  by_cases hrej : typedSetterRejects v = true
  · right
    refine ⟨?_, .nilVal, by simp [setTyped, hrej]⟩
    rintro ⟨_, _, ty, _, _, _, _, hht, hb⟩
    cases v with
    | bytes o => cases o <;> simp_all [typedSetterRejects]
    | tbl o => cases o with
      | none => exact (hasType_iff.1 hht).2.1 rfl
      | some x => simp [typedSetterRejects] at hrej
    | _ => simp [typedSetterRejects] at hrej
  have hb : v ≠ .bytes none := by rintro rfl; simp [typedSetterRejects] at hrej
  simp only [setTyped, if_neg hrej]
  rcases h.colIndex_cases n with ⟨i, hi, hix⟩ | ⟨hi, hix⟩
  · obtain ⟨ty, hty⟩ := h.type_of_name hi
    have hct : t.colType n = .ok ty := by simp [colType, (h.mapIff n i).2 hi, hty]
    rw [hct, hix]
    by_cases hm : vt ≠ ty ∧ isAlias ty vt = false
    · right
      refine ⟨?_, .typeMismatch, by simp only [if_pos hm]⟩
      rintro ⟨ci, ri, ty', hci, _, hty', _, hht, _⟩
      have := h.map_unique hi hci
      subst this
      rw [hty] at hty'; cases hty'
      rcases hasType_types hv hht with h1 | h1
      · exact hm.1 h1
      · rw [hm.2] at h1; cases h1
    · simp only [if_neg hm]
      rcases hasRow_cases t r with ⟨hr0, hr1, hrow⟩ | ⟨hr, hrow⟩
      · left
        rw [hrow]
        obtain ⟨ri, rfl⟩ := Int.eq_ofNat_of_zero_le hr0
        have hri : ri < t.rows.length := by omega
        have hci : i < t.colNames.length := (List.getElem?_eq_some_iff.1 hi).1
        refine ⟨i, ri, ty, hi, rfl, hty, hri, ?_, hb, ?_⟩
        · refine hasType_congr (ty' := vt) ?_ hv
          by_cases h1 : vt = ty
          · exact .inl h1
          · right; cases h2 : isAlias ty vt
            · exact absurd ⟨h1, h2⟩ hm
            · rfl
        · simp only []; rw [setCell?_eq h hci hri v]
      · right
        rw [hrow]
        refine ⟨?_, .noRow, rfl⟩
        rintro ⟨_, ri, _, _, rfl, _, hri, _⟩
        exact hr ⟨by omega, by omega⟩
  · right
    have hct : t.colType n = .err .noCol := by simp [colType, h.get?_none.2 hi]
    rw [hct]
    refine ⟨?_, .noCol, rfl⟩
    rintro ⟨ci, ri, ty, hci, _⟩
    exact hi (List.mem_of_getElem? hci)

/-- The typed setters, by position: a column index out of range panics. -/
theorem setTypedByColIndex_cases {t : Table τ} (h : WF t) (vt : ColType) (c r : Int) (v : Cell τ) (hv : v.HasType vt) :
    (∃ (ci ri : Nat) (ty : ColType), c = ci ∧ r = ri ∧ t.colTypes[ci]? = some ty ∧ ri < t.rows.length ∧
      v.HasType ty ∧ v ≠ .bytes none ∧ t.setTypedByColIndex vt c r v = (putCell t ci ri v, .ok ())) ∨
    (¬ (∃ (ci ri : Nat) (ty : ColType), c = ci ∧ r = ri ∧ t.colTypes[ci]? = some ty ∧
        ri < t.rows.length ∧ v.HasType ty ∧ v ≠ .bytes none) ∧
      (v = .bytes none ∨ (0 ≤ c ∧ c < t.colTypes.length)) ∧ ∃ e, t.setTypedByColIndex vt c r v = (t, .err e)) ∨
    (v ≠ .bytes none ∧ ¬ (0 ≤ c ∧ c < t.colTypes.length) ∧ t.setTypedByColIndex vt c r v = (t, .panic)) := by
  by_cases hrej : typedSetterRejects v = true
  · right; left
    have hvb : v = .bytes none := by
      cases v with
      | bytes o => cases o <;> simp_all [typedSetterRejects]
      | tbl o => cases o with
        | none => exact absurd rfl (hasType_iff.1 hv).2.1
        | some x => simp [typedSetterRejects] at hrej
      | _ => simp [typedSetterRejects] at hrej
    refine ⟨?_, .inl hvb, .nilVal, by simp [setTypedByColIndex, hrej]⟩
    rintro ⟨_, _, ty, _, _, _, _, hht, hb⟩
    exact hb hvb
  have hb : v ≠ .bytes none := by rintro rfl; simp [typedSetterRejects] at hrej
  simp only [setTypedByColIndex, if_neg hrej]
  rcases hg : goGet? t.colTypes c with _ | ty
  · right; right
    exact ⟨hb, goGet?_none.1 hg, rfl⟩
  · have hg' := goGet?_some.1 hg
    have hclt := (List.getElem?_eq_some_iff.1 hg'.2).1
    obtain ⟨ci, rfl⟩ := Int.eq_ofNat_of_zero_le hg'.1
    have hty : t.colTypes[ci]? = some ty := by simpa using hg'.2
    by_cases hm : vt ≠ ty ∧ isAlias ty vt = false
    · right; left
      refine ⟨?_, .inr ⟨by omega, by omega⟩, .typeMismatch, by simp only [if_pos hm]⟩
      rintro ⟨ci', ri, ty', hci, _, hty', _, hht, _⟩
      have : ci = ci' := by omega
      subst this
      rw [hty] at hty'; cases hty'
      rcases hasType_types hv hht with h1 | h1
      · exact hm.1 h1
      · rw [hm.2] at h1; cases h1
    · simp only [if_neg hm]
      rcases hasRow_cases t r with ⟨hr0, hr1, hrow⟩ | ⟨hr, hrow⟩
      · left
        rw [hrow]
        obtain ⟨ri, rfl⟩ := Int.eq_ofNat_of_zero_le hr0
        have hri : ri < t.rows.length := by omega
        have hci : ci < t.colNames.length := by rw [← h.typesLen]; omega
        refine ⟨ci, ri, ty, rfl, rfl, hty, hri, ?_, hb, ?_⟩
        · refine hasType_congr (ty' := vt) ?_ hv
          by_cases h1 : vt = ty
          · exact .inl h1
          · right; cases h2 : isAlias ty vt
            · exact absurd ⟨h1, h2⟩ hm
            · rfl
        · simp only []; rw [setCell?_eq h hci hri v]
      · right; left
        rw [hrow]
        refine ⟨?_, .inr ⟨by omega, by omega⟩, .noRow, rfl⟩
        rintro ⟨_, ri, _, _, rfl, _, hri, _⟩
        exact hr ⟨by omega, by omega⟩

/-! ## Reading -/

theorem getValByColIndex_nat {t : Table τ} (h : WF t) {c r : Nat} (hc : c < t.colNames.length) (hr : r < t.rows.length) :
    ∃ row v, t.rows[r]? = some row ∧ row[c]? = some v ∧ t.getValByColIndex (c : Int) (r : Int) = .ok v := by
  have hrow : t.rows[r]? = some t.rows[r] := List.getElem?_eq_getElem hr
  have hlen := h.rowLen hrow
  have hnil : t.isNilTable = false := by
    cases hn : t.isNilTable
    · rfl
    · have := (h.nilEmpty hn).2; rw [this] at hr; simp at hr
  refine ⟨t.rows[r], t.rows[r][c], hrow, List.getElem?_eq_getElem (by omega), ?_⟩
  have h1 : t.hasRow (r : Int) = .ok () := hasRow_ok.2 ⟨by omega, by omega⟩
  have h2 : t.hasColByColIndex (c : Int) = .ok () := by
    exact if_neg (by simp only [colCount]; omega)
  have h3 : t.getCell? (c : Int) (r : Int) = some t.rows[r][c] :=
    getCell?_some.2 ⟨t.rows[r], by omega, by omega, by simpa using hrow, by simp [hlen, hc]⟩
  simp [getValByColIndex, hnil, h1, h2, h3, Out.bind]

theorem getValByColIndex_err {t : Table τ} {c r : Int}
    (hno : ¬ (0 ≤ c ∧ c < t.colNames.length ∧ 0 ≤ r ∧ r < t.rows.length)) :
    ∃ e, t.getValByColIndex c r = .err e := by
  simp only [getValByColIndex]
  split
  · exact ⟨_, rfl⟩
  rcases hasRow_cases t r with ⟨hr0, hr1, hrow⟩ | ⟨hr, hrow⟩
  · have h2 : t.hasColByColIndex c = .err .noCol := if_pos (by simp only [colCount]; omega)
    simp [hrow, h2, Out.bind]
  · simp [hrow, Out.bind]

/-- `GetVal` returns exactly the stored cell. -/
theorem getVal_ok_iff {t : Table τ} (h : WF t) {n : GoStr} {r : Int} {v : Cell τ} :
    t.getVal n r = .ok v ↔ ∃ r' : Nat, r = r' ∧ At t n r' v := by
  constructor
  · intro hg
    simp only [getVal] at hg
    split at hg
    · cases hg
    rcases h.colIndex_cases n with ⟨i, hi, hix⟩ | ⟨hi, hix⟩
    · rw [hix] at hg
      simp only [Out.bind] at hg
      by_cases hno : 0 ≤ r ∧ r < t.rows.length
      · obtain ⟨ri, rfl⟩ := Int.eq_ofNat_of_zero_le hno.1
        have hci : i < t.colNames.length := (List.getElem?_eq_some_iff.1 hi).1
        obtain ⟨row, v', h1, h2, h3⟩ := getValByColIndex_nat h hci (r := ri) (by omega)
        rw [h3] at hg; cases hg
        exact ⟨ri, rfl, i, row, hi, h1, h2⟩
      · obtain ⟨e, he⟩ := getValByColIndex_err (t := t) (c := i) (r := r) (by omega)
        rw [he] at hg; cases hg
    · rw [hix] at hg; cases hg
  · rintro ⟨ri, rfl, i, row, hi, hrow, hv⟩
    have hci : i < t.colNames.length := (List.getElem?_eq_some_iff.1 hi).1
    have hri : ri < t.rows.length := (List.getElem?_eq_some_iff.1 hrow).1
    obtain ⟨row', v', h1, h2, h3⟩ := getValByColIndex_nat h hci hri
    rw [hrow] at h1; cases h1
    rw [hv] at h2; cases h2
    have hnil : t.isNilTable = false := by
      cases hn : t.isNilTable
      · rfl
      · have := (h.nilEmpty hn).2; rw [this] at hri; simp at hri
    simp [getVal, hnil, h.colIndex_ok.2 hi, Out.bind, h3]

theorem getVal_err {t : Table τ} (h : WF t) {n : GoStr} {r : Int}
    (hno : ¬ (n ∈ t.colNames ∧ 0 ≤ r ∧ r < t.rows.length)) : ∃ e, t.getVal n r = .err e := by
  simp only [getVal]
  split
  · exact ⟨_, rfl⟩
  rcases h.colIndex_cases n with ⟨i, hi, hix⟩ | ⟨hi, hix⟩
  · rw [hix]
    simp only [Out.bind]
    exact getValByColIndex_err (by have := List.mem_of_getElem? hi; grind)
  · rw [hix]; exact ⟨_, rfl⟩

theorem getVal_total {t : Table τ} (h : WF t) {n : GoStr} {r : Int} (hn : n ∈ t.colNames) (hr : 0 ≤ r ∧ r < t.rows.length) :
    ∃ v, t.getVal n r = .ok v := by
  obtain ⟨i, hi⟩ := List.getElem?_of_mem hn
  obtain ⟨ri, rfl⟩ := Int.eq_ofNat_of_zero_le hr.1
  have hci : i < t.colNames.length := (List.getElem?_eq_some_iff.1 hi).1
  obtain ⟨row, v, h1, h2, h3⟩ := getValByColIndex_nat h hci (r := ri) (by omega)
  exact ⟨v, (getVal_ok_iff h).2 ⟨ri, rfl, i, row, hi, h1, h2⟩⟩

end Verif
