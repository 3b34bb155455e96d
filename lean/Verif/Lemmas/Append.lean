import Verif.Lemmas.Core

/-! # Closed forms for appending and deleting rows and columns -/

namespace Verif
open Table

variable {τ : Type}

/-- A row of zero values for the given types, as row number `r`. -/
def zeroRow (nt : Nat → Nat → τ) (types : List ColType) (r : Nat) : List (Cell τ) :=
  types.mapIdx (fun c ty => zeroCell (nt c r) ty)

theorem zeroRow_ok (nt : Nat → Nat → τ) (types : List ColType) (r : Nat) : RowOK types (zeroRow nt types r) := by
  refine ⟨by simp [zeroRow], ?_⟩
  intro i ty c hty hc
  simp only [zeroRow, List.getElem?_mapIdx, hty, Option.map_some, Option.some.injEq] at hc
  subst hc; exact zeroCell_hasType _ _

theorem setRowCellsToZeroValue_eq (nt : Nat → Nat → τ) {t : Table τ} (hnil : t.isNilTable = false)
    (hlen : t.colTypes.length = t.colNames.length) {r : Nat} {row : List (Cell τ)}
    (hr : t.rows[r]? = some row) (hrl : row.length = t.colNames.length) :
    t.setRowCellsToZeroValue nt (r : Int) =
      ({ t with rows := t.rows.set r (zeroRow nt t.colTypes r) }, .ok ()) := by
  simp only [setRowCellsToZeroValue, colCount]
  rw [if_neg (by simp [hnil])]
  have hrlt := (List.getElem?_eq_some_iff.1 hr).1
  obtain ⟨s', h1, h2⟩ := forEach_range_ok
    (f := fun (ci : Nat) (t : Table τ) =>
      match t.colTypes[ci]? with
      | none => (t, .panic)
      | some ty =>
        match t.setCell? ci (r : Int) (zeroCell (nt ci (r : Int).toNat) ty) with
        | none => (t, .panic)
        | some t' => (t', .ok ()))
    (fun k s => s = { t with rows := t.rows.set r ((zeroRow nt t.colTypes r).take k ++ row.drop k) })
    t.colNames.length (s := t)
    (by
      intro k hk s hs
      subst hs
      have hkt : k < t.colTypes.length := by omega
      have hkz : k < (zeroRow nt t.colTypes r).length := by simp [zeroRow]; omega
      simp only [List.getElem?_eq_getElem hkt]
      rw [setCell?_nat (row := (zeroRow nt t.colTypes r).take k ++ row.drop k)]
      · refine ⟨_, rfl, ?_⟩
        simp only [List.set_set, Table.mk.injEq, true_and, and_true]
        congr 1
        have hl : ((zeroRow nt t.colTypes r).take k).length = k := by simp; omega
        rw [List.set_append_right _ _ (by omega), hl, Nat.sub_self]
        have hd : row.drop k = row[k]'(by omega) :: row.drop (k + 1) := List.drop_eq_getElem_cons (by omega)
        rw [hd, List.set_cons_zero]
        rw [List.take_succ_eq_append_getElem hkz, List.append_assoc]
        simp [zeroRow]
      · simp [hrlt]
      · simp [zeroRow]; omega)
    (by
      simp
      rw [(List.getElem?_eq_some_iff.1 hr).2.symm, List.set_getElem_self])
  refine h1.trans ?_
  rw [h2, ← hlen]
  have h3 : (zeroRow nt t.colTypes r).take t.colTypes.length = zeroRow nt t.colTypes r :=
    List.take_of_length_le (by simp [zeroRow])
  have h4 : row.drop t.colTypes.length = [] := List.drop_eq_nil_of_le (by omega)
  simp [h3, h4]

theorem appendRow_eq (nt : Nat → Nat → τ) {t : Table τ} (hnil : t.isNilTable = false)
    (hlen : t.colTypes.length = t.colNames.length) :
    t.appendRow nt = ({ t with rows := t.rows ++ [zeroRow nt t.colTypes t.rows.length] }, .ok ()) := by
  simp only [appendRow]
  rw [if_neg (by simp [hnil])]
  have hidx : (((t.rows ++ [List.replicate t.colNames.length Cell.nil]).length : Int) - 1) = (t.rows.length : Nat) := by
    simp
  simp only [hidx]
  rw [setRowCellsToZeroValue_eq nt (row := List.replicate t.colNames.length Cell.nil)]
  · simp
  · exact hnil
  · exact hlen
  · simp
  · simp

theorem appendRows_eq (nt : Nat → Nat → τ) {t : Table τ} (hnil : t.isNilTable = false)
    (hlen : t.colTypes.length = t.colNames.length) {n : Int} (hn : 0 ≤ n) :
    t.appendRows nt n =
      ({ t with rows := t.rows ++ (List.range n.toNat).map (fun k => zeroRow nt t.colTypes (t.rows.length + k)) }, .ok ()) := by
  simp only [appendRows]
  rw [if_neg (by simp [hnil])]
  have hn' : ¬ n < 0 := by omega
  obtain ⟨s', h1, h2⟩ := forEach_range_ok (f := fun (_ : Nat) (t : Table τ) => t.appendRow nt)
    (fun k s => s = { t with rows := t.rows ++ (List.range k).map (fun j => zeroRow nt t.colTypes (t.rows.length + j)) })
    n.toNat (s := t)
    (by
      intro k hk s hs
      subst hs
      refine ⟨_, appendRow_eq nt (by exact hnil) (by exact hlen), ?_⟩
      simp [List.range_succ])
    (by
      simp)
  simp [hn', h1, h2]

/-- Result of adding a zero column to the rows. -/
def addZeroCol (nt : Nat → Nat → τ) (c : Nat) (ty : ColType) (rows : List (List (Cell τ))) : List (List (Cell τ)) :=
  rows.mapIdx (fun r row => row ++ [zeroCell (nt c r) ty])

theorem setColZero_eq (nt : Nat → Nat → τ) {t : Table τ} {c : Nat} {ty : ColType} (hty : t.colTypes[c]? = some ty)
    (hrows : ∀ row ∈ t.rows, c < row.length) :
    t.setColCellsToZeroValueByColIndex nt (c : Int) =
      ({ t with rows := t.rows.mapIdx (fun r row => row.set c (zeroCell (nt c r) ty)) }, .ok ()) := by
  simp only [setColCellsToZeroValueByColIndex, rowCount]
  obtain ⟨s', h1, h2⟩ := forEach_range_ok
    (f := fun (ri : Nat) (t : Table τ) => t.setCellToZeroValueByColIndex (nt (c : Int).toNat ri) (c : Int) ri)
    (fun k s => s = { t with rows := (t.rows.mapIdx (fun r row => row.set c (zeroCell (nt c r) ty))).take k ++ t.rows.drop k })
    t.rows.length (s := t)
    (by
      intro k hk s hs
      subst hs
      simp only [setCellToZeroValueByColIndex, goGet?_nat, hty]
      have hl : ((t.rows.mapIdx (fun r row => row.set c (zeroCell (nt c r) ty))).take k).length = k := by
        simp; omega
      rw [setCell?_nat (row := t.rows[k])]
      · refine ⟨_, rfl, ?_⟩
        simp only [Table.mk.injEq, true_and, and_true]
        rw [List.set_append_right _ _ (by omega), hl, Nat.sub_self]
        rw [List.drop_eq_getElem_cons hk, List.set_cons_zero]
        rw [List.take_succ_eq_append_getElem (by simpa using hk), List.append_assoc]
        simp
      · rw [List.getElem?_append_right (by omega), hl]; simp [hk]
      · exact hrows _ (List.getElem_mem hk))
    (by
      simp)
  rw [h1, h2]
  simp
  rw [List.take_of_length_le (by simp)]

theorem appendCol_eq (nt : Nat → Nat → τ) {t : Table τ} (hnil : t.isNilTable = false)
    (hlen : t.colTypes.length = t.colNames.length)
    (hrows : ∀ row ∈ t.rows, row.length = t.colNames.length)
    {n : GoStr} {ty : ColType} (hn : isValidColName n = true) (hnew : t.colMap.get? n = none) :
    t.appendCol nt n ty.name =
      ({ t with colNames := t.colNames ++ [n], colTypes := t.colTypes ++ [ty],
                colMap := t.colMap.insert n t.colNames.length,
                rows := addZeroCol nt t.colNames.length ty t.rows }, .ok ()) := by
  simp only [appendCol, hn, ofName?_name, hnew]
  rw [if_neg (by simp [hnil])]
  simp only [Bool.false_eq_true, if_false, setColCellsToZeroValue, Table.colIndex, List.length_append, List.length_cons,
    List.length_nil, Nat.zero_add, Nat.add_sub_cancel, GoMap.get?_insert_self, Bool.true_eq_false]
  rw [setColZero_eq nt (ty := ty)]
  · simp only [Prod.mk.injEq, Table.mk.injEq, true_and, and_true, addZeroCol]
    apply List.ext_getElem?
    intro i
    simp only [List.getElem?_mapIdx, List.getElem?_map]
    rcases h : t.rows[i]? with _ | row
    · rfl
    · have := hrows row (List.mem_of_getElem? h)
      simp [← this]
  · simp [← hlen]
  · intro row hmem
    simp only [List.mem_map] at hmem
    obtain ⟨row', h1, rfl⟩ := hmem
    simp [hrows row' h1]

/-! ## Deleting a column -/

/-- Remove the element at position `i`. -/
theorem removeAt?_some {α : Type} {l l' : List α} {i : Nat} :
    removeAt? l i = some l' ↔ i < l.length ∧ l' = l.eraseIdx i := by
  simp only [removeAt?, List.eraseIdx_eq_take_drop_succ]
  split
  · rename_i h; simp [eq_comm]; omega
  · rename_i h; simp; omega

theorem removeFromRows_ok {α : Type} (i : Nat) (rows : List (List α)) (h : ∀ row ∈ rows, i < row.length) :
    removeFromRows i rows = (rows.map (fun row => row.eraseIdx i), .ok ()) := by
  induction rows with
  | nil => rfl
  | cons row rows ih =>
    have h1 : removeAt? row i = some (row.eraseIdx i) := removeAt?_some.2 ⟨h row (by simp), rfl⟩
    simp [removeFromRows, h1, ih (fun r hr => h r (by simp [hr]))]

theorem reindexFrom_get? (names : List GoStr) (hnd : names.Nodup) (i : Nat) (m : GoMap) (n : GoStr) :
    (∀ j : Nat, names[j]? = some n → (reindexFrom names i m).get? n = some (i + j)) ∧
    (n ∉ names → (reindexFrom names i m).get? n = m.get? n) := by
  induction names generalizing i m with
  | nil => simp [reindexFrom]
  | cons a names ih =>
    rw [List.nodup_cons] at hnd
    have ih' := ih hnd.2 (i + 1) (m.insert a i)
    constructor
    · intro j hj
      simp only [reindexFrom]
      cases j with
      | zero =>
        simp only [List.getElem?_cons_zero, Option.some.injEq] at hj
        subst hj
        rw [ih'.2 hnd.1, GoMap.get?_insert_self]; rfl
      | succ j =>
        simp only [List.getElem?_cons_succ] at hj
        rw [ih'.1 j hj]; congr 1; omega
    · intro hn
      simp only [List.mem_cons, not_or] at hn
      simp only [reindexFrom]
      rw [ih'.2 hn.2, GoMap.get?_insert_ne _ _ hn.1]

theorem reindexFrom_keys_nodup (names : List GoStr) (i : Nat) (m : GoMap) (h : (m.map Prod.fst).Nodup) :
    ((reindexFrom names i m).map Prod.fst).Nodup := by
  induction names generalizing i m with
  | nil => exact h
  | cons a names ih => exact ih _ _ (GoMap.keys_insert_nodup _ _ h)

theorem deleteColByColIndex_eq {t : Table τ} (h : WF t) {c : Nat} (hc : c < t.colNames.length) :
    ∃ n, t.colNames[c]? = some n ∧ t.deleteColByColIndex (c : Int) =
      ({ t with colNames := t.colNames.eraseIdx c, colTypes := t.colTypes.eraseIdx c,
                colMap := reindexFrom (t.colNames.eraseIdx c) 0 (t.colMap.erase n),
                rows := t.rows.map (fun row => row.eraseIdx c) }, .ok ()) := by
  refine ⟨t.colNames[c], List.getElem?_eq_getElem hc, ?_⟩
  have h0 : ¬ ((c : Int) < 0 ∨ (c : Int) > (t.colCount : Int) - 1) := by simp only [colCount]; omega
  have h1 : t.colName (c : Int) = .ok t.colNames[c] := by
    simp only [Table.colName]; rw [if_neg h0]; simp [goGet?_nat, hc]
  have h2 : removeAt? t.colNames c = some (t.colNames.eraseIdx c) := removeAt?_some.2 ⟨hc, rfl⟩
  have h3 : removeAt? t.colTypes c = some (t.colTypes.eraseIdx c) := removeAt?_some.2 ⟨by rw [h.typesLen]; exact hc, rfl⟩
  have h4 := removeFromRows_ok c t.rows (by
    intro row hr
    have := (h.rowsOK row hr).1
    rw [this, h.typesLen]; exact hc)
  simp only [deleteColByColIndex]; rw [if_neg h0]
  simp [h1, h2, h3, h4]

end Verif
