import Verif.Model.Columns
import Verif.Props.C15
import Verif.Props.C54

/-!
# C74: questions about cells and columns, and the forms that panic

`t.hasCellByColIndex c r` is `t.HasCellByColIndex(c, r)`: `ok` stands for `(true, nil)` and `err` for `(false, err)`.
-/

namespace Verif
open Table

variable {τ : Type}

/-- **C74**, cells: `HasCellByColIndex` says yes exactly where `GetValByColIndex` gives a value, and agrees with `HasCell`; neither panics. -/
theorem C74_hasCell (t : Table τ) (h : WF t) (c r : Int) :
    (t.hasCellByColIndex c r = .ok () ↔ ∃ v, t.getValByColIndex c r = .ok v) ∧ t.hasCellByColIndex c r ≠ .panic ∧
    (∀ n, t.colName c = .ok n → (t.hasCellByColIndex c r = .ok () ↔ t.hasCell n r = .ok ())) := by
  have key : (0 ≤ c ∧ c < t.colNames.length ∧ 0 ≤ r ∧ r < t.rows.length → t.hasCellByColIndex c r = .ok ()) ∧
      (¬ (0 ≤ c ∧ c < t.colNames.length ∧ 0 ≤ r ∧ r < t.rows.length) → ∃ e, t.hasCellByColIndex c r = .err e) := by
    constructor
    · rintro ⟨h0, h1, h2, h3⟩
      obtain ⟨ci, rfl⟩ := Int.eq_ofNat_of_zero_le h0
      obtain ⟨ri, rfl⟩ := Int.eq_ofNat_of_zero_le h2
      have hlt : ri < t.rows.length := by omega
      have hrow := List.getElem?_eq_getElem hlt
      have hlen := h.rowLen hrow
      have hcol : t.hasColByColIndex (ci : Int) = .ok () := if_neg (by simp only [colCount]; omega)
      simp only [hasCellByColIndex, hcol, hasRow_ok.2 ⟨h2, h3⟩, Out.bind]
      rw [if_neg (by omega), goGet?_nat, hrow]
      simp only
      rw [if_neg (by simp only [colCount]; omega), if_neg (by omega)]
    · intro hno
      unfold hasCellByColIndex
      by_cases hc : 0 ≤ c ∧ c < t.colNames.length
      · have hcol : t.hasColByColIndex c = .ok () := if_neg (by simp only [colCount]; omega)
        rcases hasRow_cases t r with ⟨hr0, hr1, hrow⟩ | ⟨hr, hrow⟩
        · exact absurd ⟨hc.1, hc.2, hr0, hr1⟩ hno
        · rw [hcol, hrow]; exact ⟨_, rfl⟩
      · have hcol : t.hasColByColIndex c = .err .noCol := if_pos (by simp only [colCount]; omega)
        rw [hcol]; exact ⟨_, rfl⟩
  obtain ⟨b1, b2⟩ := C15_bounds t h c r
  by_cases hin : 0 ≤ c ∧ c < t.colNames.length ∧ 0 ≤ r ∧ r < t.rows.length
  · have e := key.1 hin
    rw [e]
    refine ⟨⟨fun _ => b1 hin, fun _ => rfl⟩, by simp, fun n hn => ⟨fun _ => ?_, fun _ => rfl⟩⟩
    obtain ⟨ci, rfl⟩ := Int.eq_ofNat_of_zero_le hin.1
    have hlt : ci < t.colNames.length := by omega
    have hcn := List.getElem?_eq_getElem hlt
    rw [colName_nat hcn] at hn
    cases hn
    exact (C15_hasCell t h _ r).2 (getVal_total h (List.mem_of_getElem? hcn) ⟨hin.2.2.1, hin.2.2.2⟩)
  · obtain ⟨e, he⟩ := key.2 hin
    obtain ⟨e', he'⟩ := b2 hin
    rw [he]
    refine ⟨⟨fun x => (nomatch x), fun ⟨v, hv⟩ => by rw [he'] at hv; exact nomatch hv⟩, by simp, fun n hn => ⟨fun x => (nomatch x), fun hx => ?_⟩⟩
    obtain ⟨v, hv⟩ := (C15_hasCell t h n r).1 hx
    obtain ⟨ri, rfl, i, row, h1, h2, h3⟩ := (getVal_ok_iff h).1 hv
    have hc : 0 ≤ c ∧ c < t.colNames.length := by
      unfold colName at hn
      split at hn
      · exact nomatch hn
      · rename_i hc
        simp only [colCount] at hc
        omega
    have := (List.getElem?_eq_some_iff.1 h2).1
    exact absurd ⟨hc.1, hc.2, by omega, by omega⟩ hin

/-- **C74**, types: the questions for the type of a column say yes exactly if it is that type, and are errors exactly if there is no such column.  `IsColType` and `IsTableCol` go by name, the others by index. -/
theorem C74_types (t : Table τ) (h : WF t) (i : Nat) (n : GoStr) (ty : ColType) (hn : t.colNames[i]? = some n) (hty : t.colTypes[i]? = some ty) (T : GoStr) :
    (∃ b, t.isColType n T = .ok b ∧ t.isColTypeByColIndex i T = .ok b ∧ (b = true ↔ ty.name = T)) ∧
    (∃ b, t.isTableCol n = .ok b ∧ t.isTableColByColIndex i = .ok b ∧ (b = true ↔ ty = .table)) := by
  have hlt := (List.getElem?_eq_some_iff.1 hn).1
  have hct : t.colType n = .ok ty := by simp [colType, (h.mapIff n i).2 hn, hty]
  have hcx : t.colTypeByColIndex i = .ok ty := colTypeByColIndex_ok.2 ⟨by omega, by simpa using hty⟩
  have hcol : t.hasColByColIndex (i : Int) = .ok () := if_neg (by simp only [colCount]; omega)
  refine ⟨⟨decide (ty.name = T), ?_, ?_, by simp⟩, ⟨decide (ty.name = gs! "*Table"), ?_, ?_, ?_⟩⟩
  · simp only [isColType, hct, Out.bind]
  · simp only [isColTypeByColIndex, hcol, goGet?_nat, hn, isColType, hct, Out.bind]
  · simp only [isTableCol, h.colIndex_ok.2 hn, isTableColByColIndex, hcx, Out.bind]
  · simp only [isTableColByColIndex, hcx, Out.bind]
  · cases ty <;> decide

theorem C74_noColumn (t : Table τ) (h : WF t) (T : GoStr) :
    (∀ n, n ∉ t.colNames → (∃ e, t.isColType n T = .err e) ∧ ∃ e, t.isTableCol n = .err e) ∧
    (∀ c : Int, ¬ (0 ≤ c ∧ c < t.colNames.length) → (∃ e, t.isColTypeByColIndex c T = .err e) ∧ ∃ e, t.isTableColByColIndex c = .err e) := by
  refine ⟨fun n hn => ⟨?_, ?_⟩, fun c hc => ⟨?_, ?_⟩⟩
  · have : t.colType n = .err .noCol := by
      cases hg : t.colMap.get? n with
      | none => simp [colType, hg]
      | some i => exact absurd (List.mem_of_getElem? ((h.mapIff n i).1 hg)) hn
    rw [isColType, this]; exact ⟨_, rfl⟩
  · rw [isTableCol, h.colIndex_err hn]; exact ⟨_, rfl⟩
  · have hcol : t.hasColByColIndex c = .err .noCol := if_pos (by simp only [colCount]; omega)
    rw [isColTypeByColIndex, hcol]; exact ⟨_, rfl⟩
  · have hcol : t.colTypeByColIndex c = .err .noCol := if_pos (by have := h.typesLen; omega)
    rw [isTableColByColIndex, hcol]; exact ⟨_, rfl⟩

/-- **C74**, the forms that panic: the reading ones return what the plain ones return, and panic exactly where those have an error. -/
theorem C74_mustGet (t : Table τ) (h : WF t) (n : GoStr) (c r : Int) :
    (∀ v, t.getValMustGet n r = .ok v ↔ t.getVal n r = .ok v) ∧ (t.getValMustGet n r = .panic ↔ ∃ e, t.getVal n r = .err e) ∧
    (∀ v, t.getValByColIndexMustGet c r = .ok v ↔ t.getValByColIndex c r = .ok v) ∧ (t.getValByColIndexMustGet c r = .panic ↔ ∃ e, t.getValByColIndex c r = .err e) := by
  have hg : t.getVal n r ≠ .panic := by
    by_cases hx : n ∈ t.colNames ∧ 0 ≤ r ∧ r < t.rows.length
    · obtain ⟨v, hv⟩ := getVal_total h hx.1 hx.2
      rw [hv]; simp
    · rcases h.colIndex_cases n with ⟨i, hi, hix⟩ | ⟨hi, hix⟩
      · have := List.mem_of_getElem? hi
        rw [← getValByColIndex_eq_getVal h hi r]
        obtain ⟨e, he⟩ := (C15_bounds t h i r).2 (fun hb => hx ⟨this, hb.2.2.1, hb.2.2.2⟩)
        rw [he]; simp
      · unfold getVal
        split
        · simp
        · rw [hix]; simp [Out.bind]
  have hg' : t.getValByColIndex c r ≠ .panic := by
    by_cases hx : 0 ≤ c ∧ c < t.colNames.length ∧ 0 ≤ r ∧ r < t.rows.length
    · obtain ⟨v, hv⟩ := (C15_bounds t h c r).1 hx
      rw [hv]; simp
    · obtain ⟨v, hv⟩ := (C15_bounds t h c r).2 hx
      rw [hv]; simp
  have k1 : t.getValMustGet n r = mustGet (t.getVal n r) := by
    unfold getValMustGet
    split
    · rename_i hn
      simp [getVal, hn, mustGet]
    · rfl
  have k2 : t.getValByColIndexMustGet c r = mustGet (t.getValByColIndex c r) := by
    unfold getValByColIndexMustGet
    split
    · rename_i hn
      simp [getValByColIndex, hn, mustGet]
    · rfl
  rw [k1, k2]
  refine ⟨fun v => ?_, ?_, fun v => ?_, ?_⟩
  · cases t.getVal n r <;> simp [mustGet]
  · cases hx : t.getVal n r <;> simp_all [mustGet]
  · cases t.getValByColIndex c r <;> simp [mustGet]
  · cases hx : t.getValByColIndex c r <;> simp_all [mustGet]

/-- **C74**, the writing ones write what the plain ones write; where those have an error they panic, and the table is as before. -/
theorem C74_mustSet (valType : ColType) (t : Table τ) (h : WF t) (n : GoStr) (r : Int) (v : Cell τ) :
    (t.setTypedMustSet valType n r v).1 = (t.setTyped valType n r v).1 ∧
    ((t.setTypedMustSet valType n r v).2 = .ok () ↔ (t.setTyped valType n r v).2 = .ok ()) ∧
    ((t.setTypedMustSet valType n r v).2 = .panic ↔ ∃ e, (t.setTyped valType n r v).2 = .err e) ∧
    ((t.setTypedMustSet valType n r v).2 = .panic → (t.setTypedMustSet valType n r v).1 = t) := by
  have hc : (∃ t', t.setTyped valType n r v = (t', .ok ())) ∨ ∃ e, t.setTyped valType n r v = (t, .err e) := by
    unfold setTyped
    split
    · exact .inr ⟨_, rfl⟩
    rcases h.colIndex_cases n with ⟨i, hi, hix⟩ | ⟨hi, hix⟩
    · obtain ⟨ty, hty⟩ := h.type_of_name hi
      have hct : t.colType n = .ok ty := by simp [colType, (h.mapIff n i).2 hi, hty]
      rw [hct, hix]
      dsimp only
      split
      · exact .inr ⟨_, rfl⟩
      rcases hasRow_cases t r with ⟨hr0, hr1, hrow⟩ | ⟨hr, hrow⟩
      · rw [hrow]
        dsimp only
        obtain ⟨ri, rfl⟩ := Int.eq_ofNat_of_zero_le hr0
        have hlt : ri < t.rows.length := by omega
        have hrow' := List.getElem?_eq_getElem hlt
        have hlen := h.rowLen hrow'
        have hi' := (List.getElem?_eq_some_iff.1 hi).1
        simp only [setCell?, goGet?_nat, hrow', goSet?_nat t.rows[ri] i v (by omega), goSet?_nat t.rows ri _ hlt]
        exact .inl ⟨_, rfl⟩
      · rw [hrow]; exact .inr ⟨_, rfl⟩
    · have : t.colType n = .err .noCol := by
        cases hg : t.colMap.get? n with
        | none => simp [colType, hg]
        | some i => exact absurd (List.mem_of_getElem? ((h.mapIff n i).1 hg)) hi
      rw [this]; exact .inr ⟨_, rfl⟩
  unfold setTypedMustSet
  rcases hc with ⟨t', e⟩ | ⟨x, e⟩ <;> rw [e] <;> simp

/-- **C74**, the same by column index: what the plain one writes is written; where it has an error or panics (a column that does not exist),
they panic, and the table is as before. -/
theorem C74_mustSetByColIndex (valType : ColType) (t : Table τ) (c r : Int) (v : Cell τ) :
    (t.setTypedByColIndexMustSet valType c r v).1 = (t.setTypedByColIndex valType c r v).1 ∧
    ((t.setTypedByColIndexMustSet valType c r v).2 = .ok () ↔ (t.setTypedByColIndex valType c r v).2 = .ok ()) ∧
    ((t.setTypedByColIndexMustSet valType c r v).2 = .panic ↔ (t.setTypedByColIndex valType c r v).2 ≠ .ok ()) ∧
    ((t.setTypedByColIndexMustSet valType c r v).2 = .panic → (t.setTypedByColIndexMustSet valType c r v).1 = t) := by
  have hc : (∃ t', t.setTypedByColIndex valType c r v = (t', .ok ())) ∨ (∃ e, t.setTypedByColIndex valType c r v = (t, .err e)) ∨
      t.setTypedByColIndex valType c r v = (t, .panic) := by
    unfold setTypedByColIndex
    split
    · exact .inr (.inl ⟨_, rfl⟩)
    split
    · exact .inr (.inr rfl)
    split
    · exact .inr (.inl ⟨_, rfl⟩)
    split
    · exact .inr (.inl ⟨_, rfl⟩)
    · exact .inr (.inr rfl)
    split
    · exact .inr (.inr rfl)
    · exact .inl ⟨_, rfl⟩
  unfold setTypedByColIndexMustSet
  rcases hc with ⟨t', e⟩ | ⟨x, e⟩ | e <;> rw [e] <;> simp

/-! ## A concrete case -/

example : (Ex.t.setTypedByColIndexMustSet .int 1 0 (.int .int 7)).2 = .ok () ∧ (Ex.t.setTypedByColIndexMustSet .int 0 0 (.int .int 7)).2 = .panic ∧
    (Ex.t.setTypedByColIndexMustSet .int 9 0 (.int .int 7)).2 = .panic := by decide +kernel

example : Ex.t.hasCellByColIndex 1 0 = .ok () ∧ Ex.t.hasCellByColIndex 3 0 = .err .noCol ∧ Ex.t.hasCellByColIndex 0 3 = .err .noRow ∧
    Ex.t.isColType (gs! "age") (gs! "int") = .ok true ∧ Ex.t.isTableCol (gs! "age") = .ok false ∧ Ex.t.getValMustGet (gs! "no") 0 = .panic := by decide +kernel

end Verif
