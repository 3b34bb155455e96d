import Verif.Props.Example

/-!
# C01 Tables stay well-formed under every history of calls

`WF` (Verif/Spec/WF.lean) is the specification of a well-formed table; `Op` (Verif/Model/History.lean) lists the calls.
-/

namespace Verif
open Table

variable {τ : Type}

/-- The arguments are ones a Go program can pass: integers within the range of their type, a typed setter gets a value of its
parameter type (that may be a nil slice or a nil `*Table`), source tables are well-formed. -/
def Op.ArgsOK : Op τ → Prop
  | .setVal _ _ v => v.Real
  | .setValByColIndex _ _ v => v.Real
  | .setTyped ty _ _ v => v.HasType ty ∨ (ty = .table ∧ v = .tbl none)
  | .setTypedByColIndex ty _ _ v => v.HasType ty ∨ (ty = .table ∧ v = .tbl none)
  | .appendRowsFromTable _ f _ _ => WF f
  | _ => True

/-- One call keeps a table well-formed, whatever it returns. -/
theorem C01_step (op : Op τ) (t : Table τ) (h : WF t) (ha : op.ArgsOK) : WF (op.step t).1 := by
  cases op with
  | setName n => exact h.setName n
  | renameTable n => exact h.setName n
  | setStructShape b => exact { h with }
  | appendCol nt n ty => exact h.appendCol nt n ty
  | deleteCol n => exact h.deleteCol n
  | deleteColByColIndex c => exact h.deleteColByColIndex c
  | renameCol a b => exact h.renameCol a b
  | renameColByColIndex c b => exact h.renameColByColIndex c b
  | appendRow nt => exact h.appendRow nt
  | appendRows nt n => exact h.appendRows nt n
  | deleteRow r => exact h.deleteRow r
  | deleteRows a b => exact h.deleteRows a b
  | deleteRowsAll => exact h.deleteRowsAll
  | setVal n r v => exact h.setVal n r ha
  | setValByColIndex c r v => exact h.setValByColIndex c r ha
  | setTyped ty n r v =>
    rcases ha with ha | ⟨_, rfl⟩
    · exact h.setTyped ty n r ha
    · exact h
  | setTypedByColIndex ty c r v =>
    rcases ha with ha | ⟨_, rfl⟩
    · exact h.setTypedByColIndex ty c r ha
    · exact h
  | setCellToZeroValue nt n r => exact h.setCellToZeroValue nt n r
  | setCellToZeroValueByColIndex nt c r => exact h.setCellToZeroValueByColIndex nt c r
  | setColCellsToZeroValue nt n => exact h.setColCellsToZeroValue nt n
  | setColCellsToZeroValueByColIndex nt c => exact h.setColCellsToZeroValueByColIndex nt c
  | setRowCellsToZeroValue nt r => exact h.setRowCellsToZeroValue nt r
  | setFloatCellToNaN n r => exact h.setFloatCellToNaN n r
  | setFloatCellToNaNByColIndex c r => exact h.setFloatCellToNaNByColIndex c r
  | setColFloatCellsToNaN n => exact h.setColFloatCellsToNaN n
  | setColFloatCellsToNaNByColIndex c => exact h.setColFloatCellsToNaNByColIndex c
  | setRowFloatCellsToNaN r => exact h.setRowFloatCellsToNaN r
  | setAllFloatCellsToNaN => exact h.setAllFloatCellsToNaN
  | reorderCols ns => exact h.reorderCols ns
  | reorderColsByColIndex order => exact h.reorderColsByColIndex order
  | orderColsBySortKeys => exact h.orderColsBySortKeys
  | reverse => exact h.reverse
  | shuffle choose => exact h.shuffle choose
  | setSortKeys ns => exact h.setSortKeys ns
  | setSortKeysReverse ns => exact h.setSortKeysReverse ns
  | setSortKeysFromTable f => exact h.setSortKeysFromTable f
  | appendSortKey n => exact h.appendSortKey n
  | deleteSortKey n => exact h.deleteSortKey n
  | sort srt lower ns => exact h.sort srt lower ns
  | sortSimple srt lower ns => exact h.sortSimple srt lower ns
  | appendColsFromTable nt f => exact h.appendColsFromTable nt f
  | appendRowsFromTable nt f a b => exact h.appendRowsFromTable nt ha a b

/-- **C01.** After any finite sequence of calls, successful or not, a well-formed table is well-formed. -/
theorem C01_history (t : Table τ) (h : WF t) (ops : List (Op τ)) (ha : ∀ op ∈ ops, op.ArgsOK) : WF (Op.run t ops) := by
  induction ops generalizing t with
  | nil => exact h
  | cons op ops ih =>
    exact ih _ (C01_step op t h (ha op (by simp))) (fun o ho => ha o (by simp [ho]))

/-- **C01**, starting from `NewTable(name)`. -/
theorem C01_newTable (name : GoStr) (t : Table τ) (h0 : newTable name = .ok t) (ops : List (Op τ))
    (ha : ∀ op ∈ ops, op.ArgsOK) : WF (Op.run t ops) :=
  C01_history t (WF.newTable h0) ops ha

/-- **C01**, starting from `NewNilTable()`. -/
theorem C01_newNilTable (ops : List (Op τ)) (ha : ∀ op ∈ ops, op.ArgsOK) : WF (Op.run (newNilTable : Table τ) ops) :=
  C01_history _ WF.newNilTable ops ha

/-- What well-formedness gives through the API: every cell that can be addressed has its column's type. -/
theorem C01_cell_types (t : Table τ) (h : WF t) (n : GoStr) (ty : ColType) (r : Nat) (v : Cell τ)
    (hc : HasColT t n ty) (hv : At t n r v) : v.HasType ty := by
  obtain ⟨i, hi, hty⟩ := hc
  obtain ⟨j, row, hj, hrow, hvj⟩ := hv
  have := h.map_unique hi hj
  subst this
  exact (h.rowsOK row (List.mem_of_getElem? hrow)).2 i ty v hty hvj

theorem Ex.ops_ok : ∀ op ∈ Ex.ops, op.ArgsOK := by
  simp [Ex.ops, Op.ArgsOK, Cell.Real, IntKind.lo, IntKind.hi]

/-- The example table is well-formed, by the theorem above. -/
theorem Ex.wf : WF Ex.t := C01_newNilTable Ex.ops Ex.ops_ok

-- A longer history with failing calls in between.
example : WF (Op.run Ex.t [.deleteCol (gs! "nosuch"), .renameCol (gs! "age") (gs! "years"), .setVal (gs! "years") 1 (.str []),
    .reverse, .deleteRows 0 1, .appendRows (fun _ _ => ()) (-1), .reorderCols [gs! "w", gs! "name", gs! "years"]]) :=
  C01_history _ Ex.wf _ (by simp [Op.ArgsOK, Cell.Real])

end Verif
