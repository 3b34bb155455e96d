import Verif.Lemmas.Write
import Verif.Model.Sort
import Verif.Model.FromTable

/-! # Every call keeps a table well-formed -/

namespace Verif
open Table

variable {τ : Type}

theorem WF.newNilTable : WF (newNilTable : Table τ) where
  namesNodup := by simp [Verif.newNilTable]
  namesValid := by simp [Verif.newNilTable]
  typesLen := by simp [Verif.newNilTable]
  mapKeys := by simp [Verif.newNilTable]
  mapIff := by simp [Verif.newNilTable, GoMap.get?]
  rowsOK := by simp [Verif.newNilTable]
  nilEmpty := by simp [Verif.newNilTable]
  nameValid := by simp [Verif.newNilTable]
  keysOK := by simp [Verif.newNilTable]

theorem WF.setName {t : Table τ} (h : WF t) (n : GoStr) : WF (t.setName n).1 := by
  simp only [Table.setName]
  split
  · exact h
  · rename_i hv
    exact { h with
      nilEmpty := by intro h'; cases h'
      nameValid := by intro _; simpa using hv }

theorem newTable_ok {n : GoStr} {t : Table τ} (h : newTable n = .ok t) :
    isValidTableName n = true ∧ t = { (newNilTable : Table τ) with name := n, isNilTable := false } := by
  simp only [newTable, Table.setName] at h
  by_cases hv : isValidTableName n = false
  · simp [hv] at h
  · simp only [hv] at h
    simp only [Bool.not_eq_false] at hv
    simp only [Bool.false_eq_true, if_false, reduceCtorEq] at h
    exact ⟨hv, by simpa [eq_comm] using h⟩

theorem newTable_eq {n : GoStr} (h : isValidTableName n = true) :
    (newTable n : Out (Table τ)) = .ok { (newNilTable : Table τ) with name := n, isNilTable := false } := by
  simp [newTable, Table.setName, h]

theorem newTable_err {n : GoStr} (h : isValidTableName n = false) :
    (newTable n : Out (Table τ)) = .err .badTableName := by
  simp [newTable, Table.setName, h]

theorem WF.newTable {n : GoStr} {t : Table τ} (h : newTable n = .ok t) : WF t := by
  simp only [Table.newTable] at h
  have := (WF.newNilTable (τ := τ)).setName n
  revert h this
  rcases (Verif.newNilTable : Table τ).setName n with ⟨t', o⟩
  cases o <;> simp
  intro e; subst e; exact id

/-! ## Rows -/

theorem WF.notNil_of_rows {t : Table τ} (h : WF t) (hr : t.rows ≠ []) : t.isNilTable = false := by
  cases hn : t.isNilTable
  · rfl
  · exact absurd (h.nilEmpty hn).2 hr

theorem WF.appendRow (nt : Nat → Nat → τ) {t : Table τ} (h : WF t) : WF (t.appendRow nt).1 := by
  by_cases hnil : t.isNilTable = true
  · simp [Table.appendRow, hnil]; exact h
  · rw [appendRow_eq nt (by simpa using hnil) h.typesLen]
    refine h.withRows _ ?_ ?_
    · intro row hrow
      simp only [List.mem_append, List.mem_singleton] at hrow
      rcases hrow with hrow | rfl
      · exact h.rowsOK row hrow
      · exact zeroRow_ok _ _ _
    · intro h'; exact absurd h' hnil

theorem WF.appendRows (nt : Nat → Nat → τ) {t : Table τ} (h : WF t) (n : Int) : WF (t.appendRows nt n).1 := by
  simp only [Table.appendRows]
  split
  · exact h
  split
  · exact h
  · exact forEach_inv _ (fun _ _ s hs => hs.appendRow nt) _ h

theorem WF.subRows {t : Table τ} (h : WF t) {rows : List (List (Cell τ))} (hsub : ∀ r ∈ rows, r ∈ t.rows) :
    WF { t with rows := rows } := by
  refine h.withRows _ (fun row hrow => h.rowsOK row (hsub row hrow)) ?_
  intro hn
  have := (h.nilEmpty hn).2
  cases rows with
  | nil => rfl
  | cons r rs => have := hsub r (by simp); simp_all

theorem WF.permRows {t : Table τ} (h : WF t) {rows : List (List (Cell τ))} (hp : rows.Perm t.rows) :
    WF { t with rows := rows } :=
  h.subRows (fun _ hr => hp.mem_iff.1 hr)

theorem WF.deleteRows {t : Table τ} (h : WF t) (a b : Int) : WF (t.deleteRows a b).1 := by
  simp only [Table.deleteRows]
  split
  · exact h
  split
  · exact h
  split
  · exact h
  · refine h.subRows ?_
    intro r hr
    simp only [List.mem_append] at hr
    rcases hr with hr | hr
    · exact List.mem_of_mem_take hr
    · exact List.mem_of_mem_drop hr

theorem WF.deleteRow {t : Table τ} (h : WF t) (a : Int) : WF (t.deleteRow a).1 := by
  simp only [Table.deleteRow]
  split
  · exact h
  · have := h.deleteRows a a
    revert this
    rcases t.deleteRows a a with ⟨t', o⟩
    cases o <;> simp

theorem WF.deleteRowsAll {t : Table τ} (h : WF t) : WF t.deleteRowsAll.1 := by
  simp only [Table.deleteRowsAll]
  split
  · exact h.deleteRows _ _
  · exact h

/-! ## Columns -/

theorem appendCol_cases (nt : Nat → Nat → τ) {t : Table τ} (h : WF t) (n tyName : GoStr) :
    (∃ ty, t.isNilTable = false ∧ isValidColName n = true ∧ n ∉ t.colNames ∧ ColType.ofName? tyName = some ty ∧ tyName = ty.name ∧
      t.appendCol nt n tyName =
      ({ t with colNames := t.colNames ++ [n], colTypes := t.colTypes ++ [ty],
                colMap := t.colMap.insert n t.colNames.length,
                rows := addZeroCol nt t.colNames.length ty t.rows }, .ok ())) ∨
    (¬ (t.isNilTable = false ∧ isValidColName n = true ∧ n ∉ t.colNames ∧ ∃ ty, ColType.ofName? tyName = some ty) ∧
      ∃ e, t.appendCol nt n tyName = (t, .err e)) := by
  cases hnil : t.isNilTable
  · cases hv : isValidColName n
    · right; exact ⟨by simp, .badColName, by simp [Table.appendCol, hnil, hv]⟩
    · rcases hty : ColType.ofName? tyName with _ | ty
      · right; exact ⟨by simp, .badColType, by simp [Table.appendCol, hnil, hv, hty]⟩
      · have htn := ofName?_some hty
        subst htn
        by_cases hn : n ∈ t.colNames
        · right
          obtain ⟨i, hi⟩ := h.get?_isSome.2 hn
          exact ⟨by simp [hn], .dupCol, by simp [Table.appendCol, hnil, hv, hty, hi]⟩
        · left
          refine ⟨ty, rfl, rfl, hn, rfl, rfl, ?_⟩
          have e := appendCol_eq nt (ty := ty) hnil h.typesLen (by
            intro row hrow
            rw [(h.rowsOK row hrow).1, h.typesLen]) hv (h.get?_none.2 hn)
          rw [hnil] at e; exact e
  · right; exact ⟨by simp, .nilTable, by simp [Table.appendCol, hnil]⟩

theorem WF.appendCol (nt : Nat → Nat → τ) {t : Table τ} (h : WF t) (n tyName : GoStr) : WF (t.appendCol nt n tyName).1 := by
  rcases appendCol_cases nt h n tyName with ⟨ty, hnil, hv, hn, hty, _, e⟩ | ⟨_, e, he⟩
  · rw [e]
    exact {
      namesNodup := by
        simp only [List.nodup_append, h.namesNodup]
        simp
        intro a ha e; subst e; exact hn ha
      namesValid := by
        intro m hm
        simp only [List.mem_append, List.mem_singleton] at hm
        rcases hm with hm | rfl
        · exact h.namesValid m hm
        · exact hv
      typesLen := by simp [h.typesLen]
      mapKeys := GoMap.keys_insert_nodup _ _ h.mapKeys
      mapIff := by
        intro m i
        simp only [GoMap.get?_insert]
        split
        · rename_i e; subst e
          rw [List.getElem?_append]
          simp only [Option.some.injEq]
          split
          · rename_i hlt
            constructor
            · intro e; omega
            · intro e; exact absurd (List.mem_of_getElem? e) hn
          · rename_i hge
            constructor
            · intro e; subst e; simp
            · intro e
              have := (List.getElem?_eq_some_iff.1 e).1
              simp at this; omega
        · rename_i hne
          rw [h.mapIff, List.getElem?_append]
          split
          · rfl
          · rename_i hge
            constructor
            · intro e; exact absurd (List.getElem?_eq_some_iff.1 e).1 hge
            · intro e
              rcases hk : i - t.colNames.length with _ | k
              · rw [hk] at e; simp at e; exact absurd e.symm hne
              · rw [hk] at e; simp at e
      rowsOK := by
        intro row hrow
        simp only [addZeroCol, List.mem_mapIdx] at hrow
        obtain ⟨i, hi, rfl⟩ := hrow
        exact (h.rowsOK _ (List.getElem_mem hi)).append (zeroCell_hasType _ _)
      nilEmpty := by intro h'; simp [hnil] at h'
      nameValid := h.nameValid
      keysOK := h.keysOK }
  · rw [he]; exact h

theorem RowOK.eraseIdx {types : List ColType} {row : List (Cell τ)} (h : RowOK types row) (c : Nat) :
    RowOK (types.eraseIdx c) (row.eraseIdx c) := by
  refine ⟨by simp only [List.length_eraseIdx, h.1], ?_⟩
  intro j ty v hj hv
  rw [List.getElem?_eraseIdx] at hj hv
  split at hj
  · rw [if_pos (by assumption)] at hv; exact h.2 _ _ _ hj hv
  · rw [if_neg (by assumption)] at hv; exact h.2 _ _ _ hj hv

theorem nodup_inj {α : Type} {l : List α} (hnd : l.Nodup) {i j : Nat} {a : α} (hi : l[i]? = some a)
    (hj : l[j]? = some a) : i = j := by
  have hi' := List.getElem?_eq_some_iff.1 hi
  have hj' := List.getElem?_eq_some_iff.1 hj
  rw [List.nodup_iff_pairwise_ne, List.pairwise_iff_getElem] at hnd
  rcases Nat.lt_trichotomy i j with h | h | h
  · exact absurd (hi'.2.trans hj'.2.symm) (hnd i j hi'.1 hj'.1 h)
  · exact h
  · exact absurd (hj'.2.trans hi'.2.symm) (hnd j i hj'.1 hi'.1 h)

theorem not_mem_eraseIdx {l : List GoStr} (hnd : l.Nodup) {c : Nat} {n : GoStr} (hc : l[c]? = some n) :
    n ∉ l.eraseIdx c := by
  intro hm
  obtain ⟨j, hj⟩ := List.getElem?_of_mem hm
  rw [List.getElem?_eraseIdx] at hj
  have hu : ∀ a b : Nat, l[a]? = some n → l[b]? = some n → a = b := by
    intro a b ha hb
    exact nodup_inj hnd ha hb
  split at hj
  · have := hu _ _ hj hc; omega
  · have := hu _ _ hj hc; omega

theorem WF.deleteColByColIndex {t : Table τ} (h : WF t) (c : Int) : WF (t.deleteColByColIndex c).1 := by
  by_cases hc : c < 0 ∨ c > (t.colCount : Int) - 1
  · simp only [Table.deleteColByColIndex]; rw [if_pos hc]; exact h
  · simp only [colCount] at hc
    obtain ⟨ci, rfl⟩ := Int.eq_ofNat_of_zero_le (show 0 ≤ c by omega)
    obtain ⟨n, hn, e⟩ := deleteColByColIndex_eq h (c := ci) (by omega)
    rw [e]
    have hnd : (t.colNames.eraseIdx ci).Nodup := h.namesNodup.sublist (List.eraseIdx_sublist _ _)
    exact {
      namesNodup := hnd
      namesValid := fun m hm => h.namesValid m (List.mem_of_mem_eraseIdx hm)
      typesLen := by simp only [List.length_eraseIdx, h.typesLen]
      mapKeys := reindexFrom_keys_nodup _ _ _ (GoMap.keys_erase_nodup _ h.mapKeys)
      mapIff := by
        intro m i
        have hr := reindexFrom_get? (t.colNames.eraseIdx ci) hnd 0 (t.colMap.erase n) m
        constructor
        · intro hg
          by_cases hm : m ∈ t.colNames.eraseIdx ci
          · obtain ⟨j, hj⟩ := List.getElem?_of_mem hm
            rw [hr.1 j hj] at hg
            simp at hg; subst hg; exact hj
          · rw [hr.2 hm, GoMap.get?_erase] at hg
            split at hg
            · cases hg
            · rename_i hne
              have hm' := (h.mapIff m i).1 hg
              exfalso; apply hm
              rw [List.mem_eraseIdx_iff_getElem?]
              refine ⟨i, ?_, hm'⟩
              rintro rfl
              rw [hn] at hm'; cases hm'; exact hne rfl
        · intro hj
          rw [hr.1 i hj]; simp
      rowsOK := by
        intro row hrow
        simp only [List.mem_map] at hrow
        obtain ⟨row', hr, rfl⟩ := hrow
        exact (h.rowsOK row' hr).eraseIdx ci
      nilEmpty := by
        intro h'
        have := h.nilEmpty h'
        simp [this.1] at hn
      nameValid := h.nameValid
      keysOK := h.keysOK }

theorem WF.deleteCol {t : Table τ} (h : WF t) (n : GoStr) : WF (t.deleteCol n).1 := by
  simp only [Table.deleteCol]
  split
  · exact h.deleteColByColIndex _
  · exact h
  · exact h

theorem renameCol_cases {t : Table τ} (h : WF t) (a b : GoStr) :
    (∃ i : Nat, t.colNames[i]? = some a ∧ b ∉ t.colNames ∧ isValidColName b = true ∧
      t.renameCol a b = ({ t with colNames := t.colNames.set i b, colMap := (t.colMap.erase a).insert b i }, .ok ())) ∨
    (¬ (a ∈ t.colNames ∧ b ∉ t.colNames ∧ isValidColName b = true) ∧ ∃ e, t.renameCol a b = (t, .err e)) := by
  by_cases ha : a ∈ t.colNames
  · by_cases hb : b ∈ t.colNames
    · right; exact ⟨by simp [hb], .dupCol, by simp [Table.renameCol, h.hasCol_ok ha, h.hasCol_ok hb]⟩
    · cases hv : isValidColName b
      · right; exact ⟨by simp, .badColName, by simp [Table.renameCol, h.hasCol_ok ha, h.hasCol_err hb, hv]⟩
      · left
        obtain ⟨i, hi⟩ := List.getElem?_of_mem ha
        have hlt := (List.getElem?_eq_some_iff.1 hi).1
        refine ⟨i, hi, hb, rfl, ?_⟩
        simp [Table.renameCol, h.hasCol_ok ha, h.hasCol_err hb, hv, h.colIndex_ok.2 hi, goSet?_nat _ _ _ hlt]
  · right; exact ⟨by simp [ha], .noCol, by simp [Table.renameCol, h.hasCol_err ha]⟩

theorem WF.renameCol {t : Table τ} (h : WF t) (a b : GoStr) : WF (t.renameCol a b).1 := by
  rcases renameCol_cases h a b with ⟨i, hi, hb, hv, e⟩ | ⟨_, e, he⟩
  · rw [e]
    have hlt := (List.getElem?_eq_some_iff.1 hi).1
    exact {
      namesNodup := by
        rw [List.nodup_iff_pairwise_ne, List.pairwise_iff_getElem]
        intro x y hx hy hxy
        simp only [List.length_set] at hx hy
        have hne : t.colNames[x] ≠ t.colNames[y] := by
          
          intro e'
          have := nodup_inj h.namesNodup (List.getElem?_eq_getElem hx) (by rw [e']; exact List.getElem?_eq_getElem hy)
          omega
        rw [List.getElem_set, List.getElem_set]
        split <;> split
        · omega
        · intro e'; exact hb (by rw [e']; exact List.getElem_mem hy)
        · intro e'; exact hb (by rw [← e']; exact List.getElem_mem hx)
        · exact hne
      namesValid := by
        intro m hm
        rcases List.mem_or_eq_of_mem_set hm with h1 | h1
        · exact h.namesValid m h1
        · subst h1; exact hv
      typesLen := by simp [h.typesLen]
      mapKeys := GoMap.keys_insert_nodup _ _ (GoMap.keys_erase_nodup _ h.mapKeys)
      mapIff := by
        intro m j
        rw [GoMap.get?_insert, List.getElem?_set]
        split
        · rename_i e'; subst e'
          simp only [Option.some.injEq]
          split
          · rename_i e'; subst e'; simp
          · rename_i hne
            simp only [hne, false_iff]
            intro hj; exact hb (List.mem_of_getElem? hj)
        · rename_i hmb
          rw [GoMap.get?_erase]
          split
          · rename_i e'; subst e'
            split
            · rename_i e'; subst e'; simp [Ne.symm hmb]
            · rename_i hne
              simp only [reduceCtorEq, false_iff]
              intro hj; exact hne (h.map_unique hi hj)
          · rename_i hma
            rw [h.mapIff]
            split
            · rename_i e'; subst e'
              rw [hi]
              simp only [Option.some.injEq]
              exact ⟨fun e' => absurd e'.symm hma, fun e' => absurd e'.symm hmb⟩
            · rfl
      rowsOK := h.rowsOK
      nilEmpty := by
        intro h'
        have := h.nilEmpty h'
        simp [this.1] at hi
      nameValid := h.nameValid
      keysOK := h.keysOK }
  · rw [he]; exact h

theorem WF.renameColByColIndex {t : Table τ} (h : WF t) (c : Int) (b : GoStr) : WF (t.renameColByColIndex c b).1 := by
  simp only [Table.renameColByColIndex]
  split
  · exact h.renameCol _ _
  · exact h
  · exact h

/-! ## Cells -/

theorem WF.setValByColIndex {t : Table τ} (h : WF t) (c r : Int) {v : Cell τ} (hv : v.Real) :
    WF (t.setValByColIndex c r v).1 := by
  rcases setValByColIndex_cases h c r v hv with ⟨ci, ri, ty, _, _, hty, hri, hht, e⟩ | ⟨_, e, he⟩
  · rw [e]; exact h.putCell hty hht hri
  · rw [he]; exact h

theorem WF.setVal {t : Table τ} (h : WF t) (n : GoStr) (r : Int) {v : Cell τ} (hv : v.Real) :
    WF (t.setVal n r v).1 := by
  rcases setVal_cases h n r v hv with ⟨ci, ri, ty, _, _, hty, hri, hht, e⟩ | ⟨_, e, he⟩
  · rw [e]; exact h.putCell hty hht hri
  · rw [he]; exact h

theorem WF.setTyped {t : Table τ} (h : WF t) (vt : ColType) (n : GoStr) (r : Int) {v : Cell τ} (hv : v.HasType vt) :
    WF (t.setTyped vt n r v).1 := by
  rcases setTyped_cases h vt n r v hv with ⟨ci, ri, ty, _, _, hty, hri, hht, _, e⟩ | ⟨_, e, he⟩
  · rw [e]; exact h.putCell hty hht hri
  · rw [he]; exact h

theorem WF.setTypedByColIndex {t : Table τ} (h : WF t) (vt : ColType) (c r : Int) {v : Cell τ} (hv : v.HasType vt) :
    WF (t.setTypedByColIndex vt c r v).1 := by
  rcases setTypedByColIndex_cases h vt c r v hv with ⟨ci, ri, ty, _, _, hty, hri, hht, _, e⟩ | ⟨_, _, e, he⟩ | ⟨_, _, he⟩
  · rw [e]; exact h.putCell hty hht hri
  · rw [he]; exact h
  · rw [he]; exact h

theorem WF.setCellToZeroValueByColIndex (nt : τ) {t : Table τ} (h : WF t) (c r : Int) :
    WF (t.setCellToZeroValueByColIndex nt c r).1 := by
  simp only [Table.setCellToZeroValueByColIndex]
  split
  · exact h
  · rename_i ty hty
    split
    · exact h
    · rename_i t' ht'
      exact h.setCell (goGet?_some.1 hty).2 (zeroCell_hasType nt ty) ht'

theorem WF.setCellToZeroValue (nt : τ) {t : Table τ} (h : WF t) (n : GoStr) (r : Int) :
    WF (t.setCellToZeroValue nt n r).1 := by
  simp only [Table.setCellToZeroValue]
  split
  · exact h.setCellToZeroValueByColIndex _ _ _
  · exact h
  · exact h

theorem WF.setColCellsToZeroValueByColIndex (nt : Nat → Nat → τ) {t : Table τ} (h : WF t) (c : Int) :
    WF (t.setColCellsToZeroValueByColIndex nt c).1 :=
  forEach_inv _ (fun _ _ _ hs => hs.setCellToZeroValueByColIndex _ _ _) _ h

theorem WF.setColCellsToZeroValue (nt : Nat → Nat → τ) {t : Table τ} (h : WF t) (n : GoStr) :
    WF (t.setColCellsToZeroValue nt n).1 := by
  simp only [Table.setColCellsToZeroValue]
  split
  · exact h.setColCellsToZeroValueByColIndex _ _
  · exact h
  · exact h

theorem WF.setRowCellsToZeroValue (nt : Nat → Nat → τ) {t : Table τ} (h : WF t) (r : Int) :
    WF (t.setRowCellsToZeroValue nt r).1 := by
  simp only [Table.setRowCellsToZeroValue]
  split
  · exact h
  · refine forEach_inv _ (fun ci _ s hs => ?_) _ h
    split
    · exact hs
    · rename_i ty hty
      split
      · exact hs
      · rename_i t' ht'
        exact hs.setCell (by simpa using hty) (zeroCell_hasType _ ty) ht'

theorem WF.setFloatCellToNaNByColIndex {t : Table τ} (h : WF t) (c r : Int) :
    WF (t.setFloatCellToNaNByColIndex c r).1 := by
  simp only [Table.setFloatCellToNaNByColIndex]
  split
  · exact h
  · exact h
  · exact h.setTypedByColIndex _ _ _ trivial
  · exact h.setTypedByColIndex _ _ _ trivial
  · split <;> exact h

theorem WF.setFloatCellToNaN {t : Table τ} (h : WF t) (n : GoStr) (r : Int) :
    WF (t.setFloatCellToNaN n r).1 := by
  simp only [Table.setFloatCellToNaN]
  split
  · exact h.setFloatCellToNaNByColIndex _ _
  · exact h
  · exact h

theorem WF.setColFloatCellsToNaNByColIndex {t : Table τ} (h : WF t) (c : Int) :
    WF (t.setColFloatCellsToNaNByColIndex c).1 :=
  forEach_inv _ (fun _ _ _ hs => hs.setFloatCellToNaNByColIndex _ _) _ h

theorem WF.setColFloatCellsToNaN {t : Table τ} (h : WF t) (n : GoStr) : WF (t.setColFloatCellsToNaN n).1 := by
  simp only [Table.setColFloatCellsToNaN]
  split
  · exact h.setColFloatCellsToNaNByColIndex _
  · exact h
  · exact h

theorem WF.setRowFloatCellsToNaN {t : Table τ} (h : WF t) (r : Int) : WF (t.setRowFloatCellsToNaN r).1 := by
  refine forEach_inv _ (fun ci _ s hs => ?_) _ h
  split
  · exact hs
  · exact hs
  · exact hs.setTypedByColIndex _ _ _ trivial
  · exact hs.setTypedByColIndex _ _ _ trivial
  · exact hs

theorem WF.setAllFloatCellsToNaN {t : Table τ} (h : WF t) : WF t.setAllFloatCellsToNaN.1 := by
  refine forEach_inv _ (fun ci _ s hs => ?_) _ h
  split
  · exact hs
  · exact hs
  · exact hs.setColFloatCellsToNaNByColIndex _
  · exact hs.setColFloatCellsToNaNByColIndex _
  · exact hs

/-! ## Sort keys -/

theorem hasCompareFn_eq (ty : ColType) : hasCompareFn ty = ty.Sortable := by cases ty <;> rfl

theorem WF.withKeys {t : Table τ} (h : WF t) {ks : List SortKey}
    (hk : ∀ k ∈ ks, k.colType.Sortable = true ∧ isValidColName k.colName = true) : WF { t with sortKeys := ks } :=
  { h with keysOK := hk }

theorem getColInfo_cases {t : Table τ} (h : WF t) (n : GoStr) :
    (∃ (i : Nat) (ty : ColType), t.colNames[i]? = some n ∧ t.colTypes[i]? = some ty ∧ t.getColInfo n = .ok (n, ty)) ∨
    (n ∉ t.colNames ∧ t.getColInfo n = .err .noCol) := by
  by_cases hn : n ∈ t.colNames
  · left
    obtain ⟨i, hi⟩ := List.getElem?_of_mem hn
    obtain ⟨ty, hty⟩ := h.type_of_name hi
    exact ⟨i, ty, hi, hty, by simp [getColInfo, (h.mapIff n i).2 hi, hty]⟩
  · right; exact ⟨hn, by simp [getColInfo, h.get?_none.2 hn]⟩

theorem WF.appendSortKey {t : Table τ} (h : WF t) (n : GoStr) : WF (t.appendSortKey n).1 := by
  simp only [Table.appendSortKey]
  rcases getColInfo_cases h n with ⟨i, ty, hi, hty, e⟩ | ⟨_, e⟩
  · rw [e]
    simp only
    split
    · exact h
    · rename_i hs
      refine h.withKeys ?_
      intro k hk
      simp only [List.mem_append, List.mem_singleton] at hk
      rcases hk with hk | rfl
      · exact h.keysOK k hk
      · exact ⟨by rw [← hasCompareFn_eq]; simpa using hs, h.namesValid n (List.mem_of_getElem? hi)⟩
  · rw [e]; exact h

theorem WF.setSortKeys {t : Table τ} (h : WF t) (ns : List GoStr) : WF (t.setSortKeys ns).1 :=
  forEach_inv (P := WF) _ (fun _ _ _ hs => hs.appendSortKey _) _ (h.withKeys (by simp))

theorem WF.setSortKeyReverse {t : Table τ} (h : WF t) (n : GoStr) : WF (t.setSortKeyReverse n).1 := by
  simp only [Table.setSortKeyReverse]
  split
  · exact h
  · have : WF { t with sortKeys := t.sortKeys.map (fun k => if k.colName = n then { k with reverse := true } else k) } := by
      refine h.withKeys ?_
      intro k hk
      simp only [List.mem_map] at hk
      obtain ⟨k', hk', rfl⟩ := hk
      have := h.keysOK k' hk'
      split <;> exact this
    split <;> exact this

theorem WF.setSortKeysReverse {t : Table τ} (h : WF t) (ns : List GoStr) : WF (t.setSortKeysReverse ns).1 :=
  forEach_inv (P := WF) _ (fun _ _ _ hs => hs.setSortKeyReverse _) _ h

theorem WF.setSortKeysFromTable {t : Table τ} (h : WF t) (f : Table τ) : WF (t.setSortKeysFromTable f).1 := by
  simp only [Table.setSortKeysFromTable]
  split
  · exact h
  · have h1 := h.setSortKeys (f.sortKeys.map (·.colName))
    revert h1
    generalize t.setSortKeys (f.sortKeys.map (·.colName)) = r
    rcases r with ⟨t1, o⟩
    intro h1
    cases o with
    | ok u => exact WF.setSortKeysReverse (t := t1) h1 _
    | err e => exact h1
    | panic => exact h1

theorem deleteKeyLoop_sub {n : GoStr} {ks ks' : List SortKey} (h : deleteKeyLoop n ks = some ks') :
    ∀ k ∈ ks', k ∈ ks := by
  induction ks generalizing ks' with
  | nil => simp [deleteKeyLoop] at h
  | cons a ks ih =>
    simp only [deleteKeyLoop] at h
    split at h
    · cases h; intro k hk; simp [hk]
    · simp only [Option.map_eq_some_iff] at h
      obtain ⟨l, hl, rfl⟩ := h
      intro k hk
      simp only [List.mem_cons] at hk ⊢
      rcases hk with rfl | hk
      · exact .inl rfl
      · exact .inr (ih hl k hk)

theorem WF.deleteSortKey {t : Table τ} (h : WF t) (n : GoStr) : WF (t.deleteSortKey n).1 := by
  simp only [Table.deleteSortKey]
  split
  · exact h
  · exact h
  · split
    · rename_i ks hks
      exact h.withKeys (fun k hk => h.keysOK k (deleteKeyLoop_sub hks k hk))
    · exact h

theorem WF.sortByKeys {t : Table τ} (h : WF t) (srt : GoSort (List (Cell τ))) (lower : GoStr → GoStr) :
    WF (t.sortByKeys srt lower).1 := by
  simp only [Table.sortByKeys]
  split
  · exact h
  · rename_i rows hr
    exact h.permRows (srt.perm _ _ _ hr)

theorem WF.sort {t : Table τ} (h : WF t) (srt : GoSort (List (Cell τ))) (lower : GoStr → GoStr) (ns : List GoStr) :
    WF (t.sort srt lower ns).1 := by
  simp only [Table.sort]
  have h1 : WF (if ns.length > 0 then t.setSortKeys ns else (t, Out.ok ())).1 := by
    split
    · exact h.setSortKeys ns
    · exact h
  revert h1
  generalize (if ns.length > 0 then t.setSortKeys ns else (t, Out.ok ())) = r
  rcases r with ⟨t1, o⟩
  intro h1
  cases o with
  | ok u =>
    simp only
    split
    · exact h1
    · exact WF.sortByKeys (t := t1) h1 _ _
  | err e => exact h1
  | panic => exact h1

theorem WF.sortSimple {t : Table τ} (h : WF t) (srt : GoSort (List (Cell τ))) (lower : GoStr → GoStr) (ns : List GoStr) :
    WF (t.sortSimple srt lower ns).1 := by
  simp only [Table.sortSimple]
  split
  · exact h
  · have h1 := h.setSortKeys ns
    revert h1
    generalize t.setSortKeys ns = r
    rcases r with ⟨t1, o⟩
    intro h1
    cases o with
    | ok u => exact WF.sortByKeys (t := t1) h1 _ _
    | err e => exact h1
    | panic => exact h1

/-! ## From other tables -/

theorem WF.appendColFrom (nt : Nat → Nat → τ) {t : Table τ} (h : WF t) (info : GoStr × ColType) :
    WF (Table.appendColFrom nt info t).1 := by
  simp only [Table.appendColFrom]
  have h1 := h.appendCol nt info.1 info.2.name
  revert h1
  generalize t.appendCol nt info.1 info.2.name = r
  rcases r with ⟨t1, o⟩
  intro h1
  cases o with
  | ok u => exact h1
  | panic => exact h1
  | err e =>
    simp only
    split
    · split
      · exact h1
      · exact h1
      · split <;> exact h1
    · exact h1
    · exact h1

theorem WF.appendColsFromTable (nt : Nat → Nat → τ) {t : Table τ} (h : WF t) (f : Table τ) :
    WF (t.appendColsFromTable nt f).1 := by
  simp only [Table.appendColsFromTable]
  split
  · exact h
  · split
    · exact h
    · exact h
    · exact forEach_inv _ (fun _ _ _ hs => hs.appendColFrom nt _) _ h

theorem hasType_real {ty : ColType} {v : Cell τ} (h : v.HasType ty) : v.Real := (hasType_iff.1 h).1

theorem getValByColIndex_real {t : Table τ} (h : WF t) {c r : Int} {v : Cell τ} (hg : t.getValByColIndex c r = .ok v) : v.Real := by
  by_cases hno : 0 ≤ c ∧ c < t.colNames.length ∧ 0 ≤ r ∧ r < t.rows.length
  · obtain ⟨ci, rfl⟩ := Int.eq_ofNat_of_zero_le hno.1
    obtain ⟨ri, rfl⟩ := Int.eq_ofNat_of_zero_le hno.2.2.1
    obtain ⟨row, v', h1, h2, h3⟩ := getValByColIndex_nat h (c := ci) (r := ri) (by omega) (by omega)
    rw [h3] at hg; cases hg
    have hok := h.rowsOK row (List.mem_of_getElem? h1)
    have hlt : ci < t.colTypes.length := by rw [h.typesLen]; omega
    exact hasType_real (hok.2 ci _ _ (List.getElem?_eq_getElem hlt) h2)
  · obtain ⟨e, he⟩ := getValByColIndex_err hno
    rw [he] at hg; cases hg

theorem WF.copyCellStep {t f : Table τ} (h : WF t) (hf : WF f) (fr tr : Int) (fc : Nat) :
    WF (Table.copyCellStep f fr tr fc t).1 := by
  simp only [Table.copyCellStep]
  split
  · exact h
  · exact h
  · split
    · exact h
    · exact h
    · rename_i v hv
      exact h.setVal _ _ (getValByColIndex_real hf hv)

theorem WF.copyRowStep (nt : Nat → Nat → τ) {t f : Table τ} (h : WF t) (hf : WF f) (fr tr : Int) :
    WF (Table.copyRowStep nt f fr tr t).1 := by
  simp only [Table.copyRowStep]
  have h1 := h.appendRow nt
  revert h1
  generalize t.appendRow nt = r
  rcases r with ⟨t1, o⟩
  intro h1
  cases o with
  | ok u => exact forEach_inv (P := WF) _ (fun _ _ _ hs => hs.copyCellStep hf _ _ _) _ h1
  | err e => exact h1
  | panic => exact h1

theorem WF.appendRowsFromTable (nt : Nat → Nat → τ) {t f : Table τ} (h : WF t) (hf : WF f) (a b : Int) :
    WF (t.appendRowsFromTable nt f a b).1 := by
  simp only [Table.appendRowsFromTable]
  split
  · exact h
  split
  · exact h
  · exact forEach_inv _ (fun _ _ _ hs => hs.copyRowStep nt hf _ _) _ h

end Verif
