import Verif.Lemmas.PlainSure
import Verif.Props.C01

/-!
# C85: every history of calls gives what a plain list of columns and rows would

`Verif.Plain` (Spec/Plain.lean) says what each of the 42 calls may do to a table without a lookup map.
-/

namespace Verif
open Table Plain

variable {τ : Type}

/-- The arguments of a call are values a Go program can pass; another table passed in is one that calls have built. -/
def Op.Proper : Op τ → Prop
  | .appendColsFromTable _ f => WF f
  | op => op.ArgsOK

theorem Op.Proper.argsOK {op : Op τ} (h : op.Proper) : op.ArgsOK := by
  cases op <;> first | exact h | trivial

/-- **C85**, one call: the verdict and the table are as specified for a plain table. -/
theorem C85_step (op : Op τ) (t : Table τ) (h : WF t) (ha : op.Proper) :
    Does op (plain t) (verdict (op.step t).2) (plain (op.step t).1) := by
  cases op with
  | setName n => exact setName_does t n
  | renameTable n => exact setName_does t n
  | setStructShape b => simp only [Does]; exact done_of (t' := { t with isStructShape := b }) rfl rfl
  | appendCol nt n ty => exact appendCol_does h nt n ty
  | deleteCol n => exact deleteCol_does h n
  | deleteColByColIndex c => exact deleteColAt_does h _ c (fun _ => Iff.rfl)
  | renameCol a b => exact renameCol_does h _ a b (fun _ => Iff.rfl)
  | renameColByColIndex c b => exact renameColByColIndex_does h c b
  | appendRow nt => exact appendRow_does h nt
  | appendRows nt n => exact appendRows_does h nt n
  | deleteRow r => exact deleteRow_does t r
  | deleteRows a b => exact deleteRows_does t a b
  | deleteRowsAll => exact deleteRowsAll_does t
  | setVal n r v => exact setVal_does h n r v ha
  | setValByColIndex c r v => exact setValByColIndex_does h c r v ha
  | setTyped ty n r v => exact setTyped_does h ty n r v ha
  | setTypedByColIndex ty c r v => exact setTypedByColIndex_does h ty c r v ha
  | setCellToZeroValue nt n r => exact zeroCell_does h nt n r
  | setCellToZeroValueByColIndex nt c r => exact zeroAt_does h nt _ c r (fun _ => Iff.rfl)
  | setColCellsToZeroValue nt n => exact zeroColNamed_does h nt n
  | setColCellsToZeroValueByColIndex nt c => exact zeroCol_does h nt c
  | setRowCellsToZeroValue nt r => exact zeroRow_does h nt r
  | setFloatCellToNaN n r => exact nanCell_does h n r
  | setFloatCellToNaNByColIndex c r => exact nanAt_does h _ c r (fun _ => Iff.rfl)
  | setColFloatCellsToNaN n => exact nanColNamed_does h n
  | setColFloatCellsToNaNByColIndex c => exact nanCol_does h _ c (fun _ => Iff.rfl)
  | setRowFloatCellsToNaN r => exact nanRow_does h r
  | setAllFloatCellsToNaN => exact nanAll_does h
  | reorderCols ns => exact reorderCols_does h ns
  | reorderColsByColIndex order => exact reorderColsByColIndex_does h order
  | orderColsBySortKeys => exact orderCols_does h
  | reverse => simp only [Does]; exact done_of (reverse_eq t) rfl
  | shuffle choose =>
    obtain ⟨rows, hp, e⟩ := shuffle_eq choose t
    simp only [Does]
    exact done_of e ⟨rows, hp, rfl⟩
  | setSortKeys ns => exact setSortKeys_does h ns
  | setSortKeysReverse ns => exact setSortKeysReverse_does h ns
  | setSortKeysFromTable f => exact setSortKeysFromTable_does h f
  | appendSortKey n => exact appendSortKey_does h n
  | deleteSortKey n => exact deleteSortKey_does h n
  | sort srt lower ns => exact sort_does h srt lower ns
  | sortSimple srt lower ns => exact sortSimple_does h srt lower ns
  | appendColsFromTable nt f => exact appendColsFromTable_does h ha nt
  | appendRowsFromTable nt f a b => exact appendRowsFromTable_does h ha nt a b

/-- What the calls of a history returned, one verdict per call. -/
def Op.verdicts (t : Table τ) : List (Op τ) → List Verdict
  | [] => []
  | op :: ops => verdict (op.step t).2 :: Op.verdicts (op.step t).1 ops

/-- **C85.** Every finite history of calls, with failing calls anywhere in it, gives the verdicts and the table that the calls may give on a
plain list of columns and rows. -/
theorem C85_history (t : Table τ) (h : WF t) (ops : List (Op τ)) (ha : ∀ op ∈ ops, op.Proper) :
    Runs ops (plain t) (Op.verdicts t ops) (plain (Op.run t ops)) := by
  induction ops generalizing t with
  | nil => exact .nil _
  | cons op ops ih =>
    have hop := ha op (by simp)
    exact .cons (C85_step op t h hop) (ih _ (C01_step op t h hop.argsOK) (fun o ho => ha o (by simp [ho])))

/-- The specification leaves a call no choice, unless it sorts or shuffles. -/
theorem C85_sure (op : Op τ) (t : Table τ) (h : WF t) (hop : ¬ Chancy op) {v v' : Verdict} {x y : Table τ}
    (h1 : Does op (plain t) v x) (h2 : Does op (plain t) v' y) : v = v' ∧ x = y :=
  does_sure op (t := plain t) h.namesNodup h.typesLen (fun row hr => (h.rowsOK row hr).1) hop v v' x y h1 h2

/-! ## Nothing else has an effect -/

theorem plain_colIndex {t u : Table τ} (ht : WF t) (hu : WF u) (e : plain t = plain u) (n : GoStr) : t.colMap.get? n = u.colMap.get? n := by
  have hn : t.colNames = u.colNames := (congrArg Table.colNames e : _)
  cases h1 : t.colMap.get? n with
  | some i => exact ((hu.mapIff n i).2 (hn ▸ (ht.mapIff n i).1 h1)).symm
  | none =>
    cases h2 : u.colMap.get? n with
    | none => rfl
    | some i => rw [(ht.mapIff n i).2 (hn ▸ (hu.mapIff n i).1 h2)] at h1; cases h1

theorem plain_lessByKeys {t u : Table τ} (ht : WF t) (hu : WF u) (e : plain t = plain u) (lower : GoStr → GoStr) (ks : List SortKey) :
    t.lessByKeys lower ks = u.lessByKeys lower ks := by
  have hc : ∀ n, t.colIndex n = u.colIndex n := fun n => by simp only [colIndex, plain_colIndex ht hu e n]
  induction ks with
  | nil => rfl
  | cons k ks ih => funext a b; simp only [lessByKeys, hc, ih]

theorem plain_sortByKeys {t u : Table τ} (ht : WF t) (hu : WF u) (e : plain t = plain u) (srt : GoSort (List (Cell τ))) (lower : GoStr → GoStr) :
    verdict (t.sortByKeys srt lower).2 = verdict (u.sortByKeys srt lower).2 ∧ plain (t.sortByKeys srt lower).1 = plain (u.sortByKeys srt lower).1 := by
  have hk : t.sortKeys = u.sortKeys := (congrArg Table.sortKeys e : _)
  have hr : t.rows = u.rows := (congrArg Table.rows e : _)
  simp only [sortByKeys, plain_lessByKeys ht hu e, hk, hr]
  cases srt.run (u.lessByKeys lower u.sortKeys) u.rows with
  | none => exact ⟨rfl, e⟩
  | some rows =>
    refine ⟨rfl, ?_⟩
    cases t; cases u; simp only [plain, Table.mk.injEq] at e ⊢
    simp [e]

/-- **C85**: two tables with the same name, columns, rows, sort keys and flags behave the same, however each came about: every call gives
the same verdict, and the same table again. -/
theorem C85_same (op : Op τ) (t u : Table τ) (ht : WF t) (hu : WF u) (e : plain t = plain u) (ha : op.Proper) :
    verdict (op.step t).2 = verdict (op.step u).2 ∧ plain (op.step t).1 = plain (op.step u).1 := by
  by_cases hop : Chancy op
  · have keys : ∀ ns, verdict (t.setSortKeys ns).2 = verdict (u.setSortKeys ns).2 ∧ plain (t.setSortKeys ns).1 = plain (u.setSortKeys ns).1 := by
      intro ns
      have h1 := C85_step (.setSortKeys ns) t ht trivial
      have h2 := C85_step (.setSortKeys ns) u hu trivial
      rw [← e] at h2
      exact C85_sure (.setSortKeys ns) t ht (fun h => h) h1 h2
    cases op with
    | shuffle choose =>
      have hr : t.rows = u.rows := (congrArg Table.rows e : _)
      simp only [Op.step, Table.shuffle, hr]
      cases shuffleLoop choose (u.rows.length - 1) u.rows with
      | none => exact ⟨rfl, e⟩
      | some rows =>
        refine ⟨rfl, ?_⟩
        cases t; cases u; simp only [plain, Table.mk.injEq] at e ⊢
        simp [e]
    | sort srt lower ns =>
      simp only [Op.step, Table.sort]
      by_cases hn : ns.length > 0
      · rw [if_pos hn, if_pos hn]
        obtain ⟨h1, h2⟩ := keys ns
        have w1 := ht.setSortKeys ns
        have w2 := hu.setSortKeys ns
        generalize t.setSortKeys ns = a at *
        generalize u.setSortKeys ns = b at *
        obtain ⟨a, (_ | _ | _)⟩ := a <;> obtain ⟨b, (_ | _ | _)⟩ := b <;> simp only [verdict, reduceCtorEq] at h1 h2 w1 w2 ⊢
        · have hk : a.sortKeys = b.sortKeys := (congrArg Table.sortKeys h2 : _)
          rw [hk]
          by_cases h0 : b.sortKeys.length = 0
          · rw [if_pos h0, if_pos h0]; exact ⟨rfl, h2⟩
          · rw [if_neg h0, if_neg h0]; exact plain_sortByKeys w1 w2 h2 srt lower
        · exact ⟨trivial, h2⟩
        · exact ⟨trivial, h2⟩
      · rw [if_neg hn, if_neg hn]
        simp only
        have hk : t.sortKeys = u.sortKeys := (congrArg Table.sortKeys e : _)
        rw [hk]
        by_cases h0 : u.sortKeys.length = 0
        · rw [if_pos h0, if_pos h0]; exact ⟨rfl, e⟩
        · rw [if_neg h0, if_neg h0]; exact plain_sortByKeys ht hu e srt lower
    | sortSimple srt lower ns =>
      simp only [Op.step, Table.sortSimple]
      by_cases hn : ns.length = 0
      · rw [if_pos hn, if_pos hn]; exact ⟨rfl, e⟩
      · rw [if_neg hn, if_neg hn]
        obtain ⟨h1, h2⟩ := keys ns
        have w1 := ht.setSortKeys ns
        have w2 := hu.setSortKeys ns
        generalize t.setSortKeys ns = a at *
        generalize u.setSortKeys ns = b at *
        obtain ⟨a, (_ | _ | _)⟩ := a <;> obtain ⟨b, (_ | _ | _)⟩ := b <;> simp only [verdict, reduceCtorEq] at h1 h2 w1 w2 ⊢
        · exact plain_sortByKeys w1 w2 h2 srt lower
        · exact ⟨trivial, h2⟩
        · exact ⟨trivial, h2⟩
    | _ => exact absurd hop (fun h => h)
  · have h1 := C85_step op t ht ha
    have h2 := C85_step op u hu ha
    rw [← e] at h2
    exact C85_sure op t ht hop h1 h2

/-- **C85**, for histories: the same calls on two tables with the same contents give the same verdicts and the same contents. -/
theorem C85_same_history (t u : Table τ) (ht : WF t) (hu : WF u) (e : plain t = plain u) (ops : List (Op τ)) (ha : ∀ op ∈ ops, op.Proper) :
    Op.verdicts t ops = Op.verdicts u ops ∧ plain (Op.run t ops) = plain (Op.run u ops) := by
  induction ops generalizing t u with
  | nil => exact ⟨rfl, e⟩
  | cons op ops ih =>
    have hop := ha op (by simp)
    obtain ⟨h1, h2⟩ := C85_same op t u ht hu e hop
    obtain ⟨h3, h4⟩ := ih _ _ (C01_step op t ht hop.argsOK) (C01_step op u hu hop.argsOK) h2 (fun o ho => ha o (by simp [ho]))
    exact ⟨by simp only [Op.verdicts, h1, h3], h4⟩

/-- **C85**, for reading: looking up a column or a cell by name in two tables with the same contents gives the same. -/
theorem C85_reads (t u : Table τ) (ht : WF t) (hu : WF u) (e : plain t = plain u) (n : GoStr) (r : Int) (ty : ColType) :
    t.colIndex n = u.colIndex n ∧ t.hasCol n = u.hasCol n ∧ t.colType n = u.colType n ∧ t.getVal n r = u.getVal n r ∧
    t.getTyped ty n r = u.getTyped ty n r := by
  have hc := plain_colIndex ht hu e n
  have h1 : t.colIndex n = u.colIndex n := by simp only [colIndex, hc]
  have hty : t.colTypes = u.colTypes := (congrArg Table.colTypes e : _)
  have hr : t.rows = u.rows := (congrArg Table.rows e : _)
  have hn : t.colNames = u.colNames := (congrArg Table.colNames e : _)
  have hnil : t.isNilTable = u.isNilTable := (congrArg Table.isNilTable e : _)
  have h2 : t.colType n = u.colType n := by simp only [colType, hc, hty]
  have hb : ∀ c r, t.getValByColIndex c r = u.getValByColIndex c r := by
    intro c r
    have hcc : t.colCount = u.colCount := congrArg List.length hn
    simp only [getValByColIndex, hasColByColIndex, hasRow, hcc, getCell?, hr, hnil]
  refine ⟨h1, by simp only [hasCol, getColInfo, hc, hty], h2, ?_, ?_⟩
  · simp only [getVal, h1, hnil, hb]
  · simp only [getTyped, h2, h1, hasRow, getCell?, hr]

/-! ## A history with failures in it -/

namespace Ex85

/-- Eight calls, three of which fail. -/
def ops : List (Op Unit) :=
  [ .setVal (gs! "nosuch") 0 (.str []), .setRowFloatCellsToNaN 1, .renameCol (gs! "name") (gs! "who"), .deleteRows 0 3, .deleteRow 0,
    .setCellToZeroValueByColIndex () 7 0, .reorderCols [gs! "w", gs! "who", gs! "age"], .reverse ]

theorem ops_ok : ∀ op ∈ ops, op.Proper := by simp [ops, Op.Proper, Op.ArgsOK, Cell.Real]

example : Op.verdicts Ex.t ops = [.refused, .done, .done, .refused, .done, .panics, .done, .done] := by decide +kernel
example : (Op.run Ex.t ops).colNames = [gs! "w", gs! "who", gs! "age"] ∧
    (Op.run Ex.t ops).rows = [[.f64 0, .str (gs! "cy"), .int .int 30], [.f64 0x7ff8000000000001#64, .str (gs! "Al"), .int .int (-7)]] := by
  decide +kernel
example : Runs ops (plain Ex.t) (Op.verdicts Ex.t ops) (plain (Op.run Ex.t ops)) := C85_history Ex.t Ex.wf ops ops_ok

/-- The example table after a column was renamed there and back: the same contents, another lookup map. -/
def u : Table Unit := Op.run Ex.t [.renameCol (gs! "name") (gs! "who"), .renameCol (gs! "who") (gs! "name")]

theorem u_wf : WF u := C01_history _ Ex.wf _ (by simp [Op.ArgsOK])

example : u.colMap ≠ Ex.t.colMap ∧ plain u = plain Ex.t := by decide +kernel
example : Op.verdicts u ops = Op.verdicts Ex.t ops ∧ plain (Op.run u ops) = plain (Op.run Ex.t ops) :=
  C85_same_history u Ex.t u_wf Ex.wf (by decide +kernel) ops ops_ok
example : u.getVal (gs! "age") 1 = Ex.t.getVal (gs! "age") 1 := (C85_reads u Ex.t u_wf Ex.wf (by decide +kernel) (gs! "age") 1 .int).2.2.2.1

end Ex85

end Verif
