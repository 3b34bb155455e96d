import Verif.Lemmas.Live
import Verif.Props.C17
import Verif.Props.C01

/-!
# C11 Sort keys survive structural edits: Sort never panics

As stated this is false: after RenameCol or DeleteCol of a key column, Sort panics (`C11_false_rename`, `C11_false_delete`).
`C11_partial` proves it for every history that does not rename or delete a column while it is a sort key.
-/

namespace Verif
open Table

variable {τ : Type}

/-- The call does not rename or delete a column that is a sort key of `t`. -/
def Op.SparesKeys (t : Table τ) : Op τ → Prop
  | .deleteCol n => ∀ k ∈ t.sortKeys, k.colName ≠ n
  | .renameCol a _ => ∀ k ∈ t.sortKeys, k.colName ≠ a
  | .deleteColByColIndex c => ∀ i : Nat, c = i → ∀ k ∈ t.sortKeys, t.colNames[i]? ≠ some k.colName
  | .renameColByColIndex c _ => ∀ i : Nat, c = i → ∀ k ∈ t.sortKeys, t.colNames[i]? ≠ some k.colName
  | _ => True

/-- No call of the history renames or deletes a column that is a sort key at that time. -/
def Op.AllSpareKeys (t : Table τ) : List (Op τ) → Prop
  | [] => True
  | op :: ops => op.SparesKeys t ∧ AllSpareKeys (op.step t).1 ops

theorem live_step (op : Op τ) (t : Table τ) (h : Live t) (ha : op.ArgsOK) (hs : op.SparesKeys t) : Live (op.step t).1 := by
  refine ⟨C01_step op t h.1 ha, ?_⟩
  obtain ⟨hw, hl⟩ := h
  cases op with
  | setName n => exact hl.setName n
  | renameTable n => exact hl.setName n
  | setStructShape b => exact hl.frame rfl rfl rfl
  | appendCol nt n ty => exact hl.appendCol nt hw n ty
  | deleteCol n => exact hl.deleteCol hw n hs
  | deleteColByColIndex c => exact hl.deleteColByColIndex hw c hs
  | renameCol a b => exact hl.renameCol hw a b hs
  | renameColByColIndex c b => exact hl.renameColByColIndex hw c b hs
  | appendRow nt => exact hl.appendRow nt hw
  | appendRows nt n => exact hl.appendRows nt hw n
  | deleteRow r => exact hl.deleteRow r
  | deleteRows a b => exact hl.deleteRows a b
  | deleteRowsAll => exact hl.deleteRowsAll
  | setVal n r v => exact hl.setVal hw n r ha
  | setValByColIndex c r v => exact hl.setValByColIndex hw c r ha
  | setTyped ty n r v =>
    rcases ha with ha | ⟨_, rfl⟩
    · exact hl.setTyped hw ty n r ha
    · exact hl
  | setTypedByColIndex ty c r v =>
    rcases ha with ha | ⟨_, rfl⟩
    · exact hl.setTypedByColIndex hw ty c r ha
    · exact hl
  | setCellToZeroValue nt n r => exact hl.setCellToZeroValue nt n r
  | setCellToZeroValueByColIndex nt c r => exact hl.setCellToZeroValueByColIndex nt c r
  | setColCellsToZeroValue nt n => exact hl.setColCellsToZeroValue nt n
  | setColCellsToZeroValueByColIndex nt c => exact hl.setColCellsToZeroValueByColIndex nt c
  | setRowCellsToZeroValue nt r => exact hl.setRowCellsToZeroValue nt r
  | setFloatCellToNaN n r => exact (Live.setFloatCellToNaN ⟨hw, hl⟩ n r).2
  | setFloatCellToNaNByColIndex c r => exact (Live.setFloatCellToNaNByColIndex ⟨hw, hl⟩ c r).2
  | setColFloatCellsToNaN n => exact (Live.setColFloatCellsToNaN ⟨hw, hl⟩ n).2
  | setColFloatCellsToNaNByColIndex c => exact (Live.setColFloatCellsToNaNByColIndex ⟨hw, hl⟩ c).2
  | setRowFloatCellsToNaN r => exact (Live.setRowFloatCellsToNaN ⟨hw, hl⟩ r).2
  | setAllFloatCellsToNaN => exact (Live.setAllFloatCellsToNaN ⟨hw, hl⟩).2
  | reorderCols ns => exact hl.reorderCols hw ns
  | reorderColsByColIndex order => exact hl.reorderColsByColIndex hw order
  | orderColsBySortKeys => exact hl.orderColsBySortKeys hw
  | reverse =>
    show KeysLive t.reverse.1
    rw [reverse_eq]; exact hl.frame rfl rfl rfl
  | shuffle choose =>
    obtain ⟨rows, _, e⟩ := shuffle_eq choose t
    show KeysLive (t.shuffle choose).1
    rw [e]; exact hl.frame rfl rfl rfl
  | setSortKeys ns => exact (Live.setSortKeys hw ns).2
  | setSortKeysReverse ns => exact hl.setSortKeysReverse ns
  | setSortKeysFromTable f => exact hl.setSortKeysFromTable hw f
  | appendSortKey n => exact (Live.appendSortKey ⟨hw, hl⟩ n).2
  | deleteSortKey n => exact hl.deleteSortKey n
  | sort srt lower ns => exact hl.sort hw srt lower ns
  | sortSimple srt lower ns => exact hl.sortSimple hw srt lower ns
  | appendColsFromTable nt f => exact (Live.appendColsFromTable nt ⟨hw, hl⟩ f).2
  | appendRowsFromTable nt f a b => exact (Live.appendRowsFromTable nt ⟨hw, hl⟩ ha a b).2

theorem live_history (t : Table τ) (h : Live t) (ops : List (Op τ)) (ha : ∀ op ∈ ops, op.ArgsOK) (hs : Op.AllSpareKeys t ops) :
    Live (Op.run t ops) := by
  induction ops generalizing t with
  | nil => exact h
  | cons op ops ih =>
    exact ih _ (live_step op t h (ha op (by simp)) hs.1) (fun o ho => ha o (by simp [ho])) hs.2

theorem sortByKeys_noPanic (srt : GoSort (List (Cell τ))) (lower : GoStr → GoStr) (t : Table τ) (h : Live t) :
    (t.sortByKeys srt lower).2 = .ok () := by
  obtain ⟨h, hlive⟩ := h
  have hs : ∀ k ∈ t.sortKeys, k.colType.Sortable = true := fun k hk => (h.keysOK k hk).1
  have htot : ∀ a ∈ t.rows, ∀ b ∈ t.rows, (t.lessByKeys lower t.sortKeys a b).isSome = true := by
    intro a ha b hb
    obtain ⟨i, hi⟩ := List.getElem?_of_mem ha
    obtain ⟨j, hj⟩ := List.getElem?_of_mem hb
    obtain ⟨as, h1, h2⟩ := keyCells_exists h (List.getElem?_eq_some_iff.1 hi).1 t.sortKeys hlive hs
    obtain ⟨bs, g1, g2⟩ := keyCells_exists h (List.getElem?_eq_some_iff.1 hj).1 t.sortKeys hlive hs
    rw [lessByKeys_eq lower h hi hj h1 g1 h2 g2]; rfl
  have hnp := srt.noPanic _ _ htot
  simp only [sortByKeys]
  cases hrun : srt.run (t.lessByKeys lower t.sortKeys) t.rows with
  | none => rw [hrun] at hnp; cases hnp
  | some rows => rfl

/-- `Sort(names...)` and `SortSimple(names...)` do not panic on a table whose keys are existing columns, NaN or not. -/
theorem C11_sort_noPanic (srt : GoSort (List (Cell τ))) (lower : GoStr → GoStr) (t : Table τ) (h : WF t) (hl : KeysLive t)
    (names : List GoStr) : (t.sort srt lower names).2 ≠ .panic ∧ (t.sortSimple srt lower names).2 ≠ .panic := by
  have hk : Live (t.setSortKeys names).1 := Live.setSortKeys h names
  have hp := (C23_setSortKeys t h names).2.2
  constructor
  · have key : Live (if names.length > 0 then t.setSortKeys names else (t, .ok ())).1 ∧
        (if names.length > 0 then t.setSortKeys names else (t, .ok ())).2 ≠ .panic := by
      split
      · exact ⟨hk, hp⟩
      · exact ⟨⟨h, hl⟩, by simp⟩
    simp only [sort]
    split
    · simp
    · rename_i heq; rw [heq] at key; exact key.2
    · rename_i t1 heq
      rw [heq] at key
      split
      · simp
      · rw [sortByKeys_noPanic srt lower t1 key.1]; simp
  · simp only [sortSimple]
    split
    · simp
    · revert hk hp
      generalize t.setSortKeys names = r
      rcases r with ⟨t1, o⟩
      intro hk hp
      cases o with
      | ok u => have := sortByKeys_noPanic srt lower t1 hk; simp only; rw [this]; simp
      | err e => simp
      | panic => exact absurd rfl hp

/-- **C11**, restricted: after `SetSortKeys(names)` and any further calls, none of which renames or deletes a column that is a sort
key at that time, `Sort()` does not panic.  Missing for the full claim: histories that rename or delete key columns, for which it is
false (`C11_false_rename`, `C11_false_delete`). -/
theorem C11_partial (srt : GoSort (List (Cell τ))) (lower : GoStr → GoStr) (t : Table τ) (h : WF t) (names : List GoStr)
    (ops : List (Op τ)) (ha : ∀ op ∈ ops, op.ArgsOK) (hs : Op.AllSpareKeys (t.setSortKeys names).1 ops) :
    ((Op.run (t.setSortKeys names).1 ops).sort srt lower []).2 ≠ .panic := by
  have := live_history _ (Live.setSortKeys h names) ops ha hs
  exact (C11_sort_noPanic srt lower _ this.1 this.2 []).1

theorem sort_panics_of_missing (srt : GoSort (List (Cell τ))) (lower : GoStr → GoStr) (t : Table τ) (k : SortKey) (ks : List SortKey)
    (hk : t.sortKeys = k :: ks) (hno : t.colIndex k.colName = .err .noCol) (hr : 2 ≤ t.rows.length) :
    (t.sort srt lower []).2 = .panic := by
  have hless : ∀ a b, t.lessByKeys lower t.sortKeys a b = none := by
    intro a b
    rw [hk]
    simp [lessByKeys, hno, goGet?]
  have := srt.panics (t.lessByKeys lower t.sortKeys) t.rows hr (fun a _ b _ => hless a b)
  simp only [sort, List.length_nil, gt_iff_lt, Nat.lt_irrefl, if_false]
  rw [if_neg (by rw [hk]; simp)]
  simp only [sortByKeys, this]

/-- **C11** is false after `RenameCol` of a key column: whatever sorting algorithm is used, `Sort()` panics. -/
theorem C11_false_rename (srt : GoSort (List (Cell Unit))) (lower : GoStr → GoStr) :
    (Ex.t.renameCol (gs! "age") (gs! "years")).2 = .ok () ∧
    ((Ex.t.renameCol (gs! "age") (gs! "years")).1.sort srt lower []).2 = .panic :=
  ⟨by decide +kernel,
    sort_panics_of_missing srt lower _ ⟨gs! "age", .int, false⟩ [] (by decide +kernel) (by decide +kernel) (by decide +kernel)⟩

/-- **C11** is false after `DeleteCol` of a key column. -/
theorem C11_false_delete (srt : GoSort (List (Cell Unit))) (lower : GoStr → GoStr) :
    (Ex.t.deleteCol (gs! "age")).2 = .ok () ∧ ((Ex.t.deleteCol (gs! "age")).1.sort srt lower []).2 = .panic :=
  ⟨by decide +kernel,
    sort_panics_of_missing srt lower _ ⟨gs! "age", .int, false⟩ [] (by decide +kernel) (by decide +kernel) (by decide +kernel)⟩

-- a history that deletes and renames other columns, sets cells and adds rows
example : Op.AllSpareKeys (Ex.t.setSortKeys [gs! "age", gs! "name"]).1
    [.deleteCol (gs! "w"), .appendRow (fun _ _ => ()), .setVal (gs! "age") 3 (.int .int 5), .renameCol (gs! "nosuch") (gs! "x")] := by
  have hk : (Ex.t.setSortKeys [gs! "age", gs! "name"]).1.sortKeys = [⟨gs! "age", .int, false⟩, ⟨gs! "name", .string, false⟩] := by
    decide +kernel
  refine ⟨?_, trivial, trivial, ?_, trivial⟩
  · intro k hk'; rw [hk] at hk'; revert k; decide +kernel
  · show ∀ k ∈ _, _
    have : (Op.run (Ex.t.setSortKeys [gs! "age", gs! "name"]).1 [.deleteCol (gs! "w"), .appendRow (fun _ _ => ()),
        .setVal (gs! "age") 3 (.int .int 5)]).sortKeys = [⟨gs! "age", .int, false⟩, ⟨gs! "name", .string, false⟩] := by decide +kernel
    intro k hk'
    have hk'' : k ∈ [(⟨gs! "age", .int, false⟩ : SortKey), ⟨gs! "name", .string, false⟩] := this ▸ hk'
    clear hk' this; revert k; decide +kernel

end Verif
