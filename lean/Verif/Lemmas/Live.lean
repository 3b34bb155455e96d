import Verif.Lemmas.Sort
import Verif.Lemmas.Reorder
import Verif.Props.C09
import Verif.Props.C10

/-! # Calls that keep the key columns -/

namespace Verif
open Table

variable {τ : Type}

/-- Well-formed, with every sort key an existing column of the key's type. -/
def Live (t : Table τ) : Prop := WF t ∧ KeysLive t

theorem KeysLive.frame {t t' : Table τ} (h : KeysLive t) (h1 : t'.colNames = t.colNames) (h2 : t'.colTypes = t.colTypes)
    (h3 : t'.sortKeys = t.sortKeys) : KeysLive t' := by
  intro k hk
  rw [h3] at hk
  obtain ⟨i, a, b⟩ := h k hk
  exact ⟨i, by rw [h1]; exact a, by rw [h2]; exact b⟩

theorem KeysLive.grow {t t' : Table τ} (h : KeysLive t) (h1 : ∀ n ty, HasColT t n ty → HasColT t' n ty)
    (h3 : ∀ k ∈ t'.sortKeys, k ∈ t.sortKeys) : KeysLive t' := fun k hk => h1 _ _ (h k (h3 k hk))

theorem KeysLive.setCell {t t' : Table τ} (h : KeysLive t) {c r : Int} {v : Cell τ} (hs : t.setCell? c r v = some t') : KeysLive t' := by
  obtain ⟨row, _, _, _, _, rfl⟩ := setCell?_some.1 hs
  exact h.frame rfl rfl rfl

theorem KeysLive.setName {t : Table τ} (h : KeysLive t) (n : GoStr) : KeysLive (t.setName n).1 := by
  simp only [Table.setName]; split
  · exact h
  · exact h.frame rfl rfl rfl

theorem KeysLive.appendRow (nt : Nat → Nat → τ) {t : Table τ} (hw : WF t) (h : KeysLive t) : KeysLive (t.appendRow nt).1 := by
  by_cases hnil : t.isNilTable = true
  · simp [Table.appendRow, hnil]; exact h
  · rw [appendRow_eq nt (by simpa using hnil) hw.typesLen]; exact h.frame rfl rfl rfl

theorem KeysLive.appendRows (nt : Nat → Nat → τ) {t : Table τ} (hw : WF t) (h : KeysLive t) (n : Int) : KeysLive (t.appendRows nt n).1 := by
  simp only [Table.appendRows]
  split
  · exact h
  split
  · exact h
  · exact (forEach_inv (P := Live) _ (fun _ _ _ hs => ⟨hs.1.appendRow nt, hs.2.appendRow nt hs.1⟩) _ ⟨hw, h⟩).2

theorem KeysLive.deleteRows {t : Table τ} (h : KeysLive t) (a b : Int) : KeysLive (t.deleteRows a b).1 := by
  simp only [Table.deleteRows]
  split
  · exact h
  split
  · exact h
  split
  · exact h
  · exact h.frame rfl rfl rfl

theorem KeysLive.deleteRow {t : Table τ} (h : KeysLive t) (a : Int) : KeysLive (t.deleteRow a).1 := by
  simp only [Table.deleteRow]
  split
  · exact h
  · have := h.deleteRows a a
    revert this
    rcases t.deleteRows a a with ⟨t', o⟩
    cases o <;> simp

theorem KeysLive.deleteRowsAll {t : Table τ} (h : KeysLive t) : KeysLive t.deleteRowsAll.1 := by
  simp only [Table.deleteRowsAll]
  split
  · exact h.deleteRows _ _
  · exact h

theorem KeysLive.appendCol (nt : Nat → Nat → τ) {t : Table τ} (hw : WF t) (h : KeysLive t) (n tyName : GoStr) :
    KeysLive (t.appendCol nt n tyName).1 := by
  rcases appendCol_cases nt hw n tyName with ⟨ty, _, _, _, _, _, e⟩ | ⟨_, e, he⟩
  · rw [e]
    refine h.grow ?_ (fun k hk => hk)
    rintro m ty' ⟨i, h1, h2⟩
    exact ⟨i, by rw [List.getElem?_append_left (List.getElem?_eq_some_iff.1 h1).1]; exact h1,
      by rw [List.getElem?_append_left (List.getElem?_eq_some_iff.1 h2).1]; exact h2⟩
  · rw [he]; exact h

theorem KeysLive.deleteColByColIndex {t : Table τ} (hw : WF t) (h : KeysLive t) (c : Int)
    (hs : ∀ i : Nat, c = i → ∀ k ∈ t.sortKeys, t.colNames[i]? ≠ some k.colName) : KeysLive (t.deleteColByColIndex c).1 := by
  by_cases hc : 0 ≤ c ∧ c < t.colNames.length
  · obtain ⟨ci, rfl⟩ := Int.eq_ofNat_of_zero_le hc.1
    obtain ⟨n, hn, e⟩ := deleteColByColIndex_eq hw (c := ci) (by omega)
    rw [e]
    have hr := col_removed hw hn (reindexFrom (t.colNames.eraseIdx ci) 0 (t.colMap.erase n))
    intro k hk
    refine (hr.2.1 _ _ ?_).2 (h k hk)
    intro heq
    exact hs ci rfl k hk (by rw [hn, heq])
  · have := ((C09_deleteColByColIndex t hw c).2 hc).2
    rw [this]; exact h

theorem KeysLive.deleteCol {t : Table τ} (hw : WF t) (h : KeysLive t) (n : GoStr) (hs : ∀ k ∈ t.sortKeys, k.colName ≠ n) :
    KeysLive (t.deleteCol n).1 := by
  by_cases hn : n ∈ t.colNames
  · have hr := (((C09_deleteCol t hw n).1 hn).2).1
    intro k hk
    rw [hr.2.2.2.2.2.1] at hk
    exact (hr.2.1 _ _ (hs k hk)).2 (h k hk)
  · rw [((C09_deleteCol t hw n).2 hn).2]; exact h

theorem KeysLive.renameCol {t : Table τ} (hw : WF t) (h : KeysLive t) (a b : GoStr) (hs : ∀ k ∈ t.sortKeys, k.colName ≠ a) :
    KeysLive (t.renameCol a b).1 := by
  rcases renameCol_cases hw a b with ⟨i, h1, h2, h3, e⟩ | ⟨_, e, he⟩
  · rw [e]
    intro k hk
    obtain ⟨j, g1, g2⟩ := h k hk
    refine ⟨j, ?_, g2⟩
    have : i ≠ j := by
      rintro rfl
      rw [h1] at g1; exact hs k hk (Option.some.inj g1).symm
    simp [List.getElem?_set, this, g1]
  · rw [he]; exact h

theorem KeysLive.renameColByColIndex {t : Table τ} (hw : WF t) (h : KeysLive t) (c : Int) (b : GoStr)
    (hs : ∀ i : Nat, c = i → ∀ k ∈ t.sortKeys, t.colNames[i]? ≠ some k.colName) : KeysLive (t.renameColByColIndex c b).1 := by
  by_cases hc : 0 ≤ c ∧ c < t.colNames.length
  · obtain ⟨ci, rfl⟩ := Int.eq_ofNat_of_zero_le hc.1
    have hlt : ci < t.colNames.length := by omega
    rw [(C10_renameColByColIndex t ci b).1 ci _ rfl (List.getElem?_eq_getElem hlt)]
    refine h.renameCol hw _ _ (fun k hk e => hs ci rfl k hk ?_)
    rw [List.getElem?_eq_getElem hlt, e]
  · rw [(C10_renameColByColIndex t c b).2 hc]; exact h

theorem KeysLive.putCell {t : Table τ} (h : KeysLive t) (c r : Nat) (v : Cell τ) : KeysLive (putCell t c r v) :=
  h.frame rfl rfl rfl

theorem KeysLive.setValByColIndex {t : Table τ} (hw : WF t) (h : KeysLive t) (c r : Int) {v : Cell τ} (hv : v.Real) :
    KeysLive (t.setValByColIndex c r v).1 := by
  rcases setValByColIndex_cases hw c r v hv with ⟨ci, ri, ty, _, _, hty, hri, hht, e⟩ | ⟨_, e, he⟩
  · rw [e]; exact h.putCell _ _ _
  · rw [he]; exact h

theorem KeysLive.setVal {t : Table τ} (hw : WF t) (h : KeysLive t) (n : GoStr) (r : Int) {v : Cell τ} (hv : v.Real) :
    KeysLive (t.setVal n r v).1 := by
  rcases setVal_cases hw n r v hv with ⟨ci, ri, ty, _, _, hty, hri, hht, e⟩ | ⟨_, e, he⟩
  · rw [e]; exact h.putCell _ _ _
  · rw [he]; exact h

theorem KeysLive.setTyped {t : Table τ} (hw : WF t) (h : KeysLive t) (vt : ColType) (n : GoStr) (r : Int) {v : Cell τ} (hv : v.HasType vt) :
    KeysLive (t.setTyped vt n r v).1 := by
  rcases setTyped_cases hw vt n r v hv with ⟨ci, ri, ty, _, _, hty, hri, hht, _, e⟩ | ⟨_, e, he⟩
  · rw [e]; exact h.putCell _ _ _
  · rw [he]; exact h

theorem KeysLive.setTypedByColIndex {t : Table τ} (hw : WF t) (h : KeysLive t) (vt : ColType) (c r : Int) {v : Cell τ} (hv : v.HasType vt) :
    KeysLive (t.setTypedByColIndex vt c r v).1 := by
  rcases setTypedByColIndex_cases hw vt c r v hv with ⟨ci, ri, ty, _, _, hty, hri, hht, _, e⟩ | ⟨_, _, e, he⟩ | ⟨_, _, he⟩
  · rw [e]; exact h.putCell _ _ _
  · rw [he]; exact h
  · rw [he]; exact h

theorem KeysLive.setCellToZeroValueByColIndex (nt : τ) {t : Table τ} (h : KeysLive t) (c r : Int) :
    KeysLive (t.setCellToZeroValueByColIndex nt c r).1 := by
  simp only [Table.setCellToZeroValueByColIndex]
  split
  · exact h
  · split
    · exact h
    · rename_i t' ht'
      exact h.setCell ht'

theorem KeysLive.setCellToZeroValue (nt : τ) {t : Table τ} (h : KeysLive t) (n : GoStr) (r : Int) :
    KeysLive (t.setCellToZeroValue nt n r).1 := by
  simp only [Table.setCellToZeroValue]
  split
  · exact h.setCellToZeroValueByColIndex _ _ _
  · exact h
  · exact h

theorem KeysLive.setColCellsToZeroValueByColIndex (nt : Nat → Nat → τ) {t : Table τ} (h : KeysLive t) (c : Int) :
    KeysLive (t.setColCellsToZeroValueByColIndex nt c).1 :=
  forEach_inv (P := KeysLive) _ (fun _ _ _ hs => KeysLive.setCellToZeroValueByColIndex _ hs _ _) _ h

theorem KeysLive.setColCellsToZeroValue (nt : Nat → Nat → τ) {t : Table τ} (h : KeysLive t) (n : GoStr) :
    KeysLive (t.setColCellsToZeroValue nt n).1 := by
  simp only [Table.setColCellsToZeroValue]
  split
  · exact h.setColCellsToZeroValueByColIndex _ _
  · exact h
  · exact h

theorem KeysLive.setRowCellsToZeroValue (nt : Nat → Nat → τ) {t : Table τ} (h : KeysLive t) (r : Int) :
    KeysLive (t.setRowCellsToZeroValue nt r).1 := by
  simp only [Table.setRowCellsToZeroValue]
  split
  · exact h
  · refine forEach_inv (P := KeysLive) _ (fun ci _ s hs => ?_) _ h
    split
    · exact hs
    · split
      · exact hs
      · rename_i t' ht'
        exact KeysLive.setCell hs ht'

theorem Live.setFloatCellToNaNByColIndex {t : Table τ} (h : Live t) (c r : Int) :
    Live (t.setFloatCellToNaNByColIndex c r).1 := by
  refine ⟨h.1.setFloatCellToNaNByColIndex c r, ?_⟩
  simp only [Table.setFloatCellToNaNByColIndex]
  split
  · exact h.2
  · exact h.2
  · exact h.2.setTypedByColIndex h.1 _ _ _ trivial
  · exact h.2.setTypedByColIndex h.1 _ _ _ trivial
  · split <;> exact h.2

theorem Live.setFloatCellToNaN {t : Table τ} (h : Live t) (n : GoStr) (r : Int) :
    Live (t.setFloatCellToNaN n r).1 := by
  simp only [Table.setFloatCellToNaN]
  split
  · exact h.setFloatCellToNaNByColIndex _ _
  · exact h
  · exact h

theorem Live.setColFloatCellsToNaNByColIndex {t : Table τ} (h : Live t) (c : Int) :
    Live (t.setColFloatCellsToNaNByColIndex c).1 :=
  forEach_inv (P := Live) _ (fun _ _ _ hs => Live.setFloatCellToNaNByColIndex hs _ _) _ h

theorem Live.setColFloatCellsToNaN {t : Table τ} (h : Live t) (n : GoStr) : Live (t.setColFloatCellsToNaN n).1 := by
  simp only [Table.setColFloatCellsToNaN]
  split
  · exact h.setColFloatCellsToNaNByColIndex _
  · exact h
  · exact h

theorem Live.setTypedByColIndex {t : Table τ} (h : Live t) (vt : ColType) (c r : Int) {v : Cell τ} (hv : v.HasType vt) :
    Live (t.setTypedByColIndex vt c r v).1 := ⟨h.1.setTypedByColIndex _ _ _ hv, h.2.setTypedByColIndex h.1 _ _ _ hv⟩

theorem Live.setRowFloatCellsToNaN {t : Table τ} (h : Live t) (r : Int) : Live (t.setRowFloatCellsToNaN r).1 := by
  refine forEach_inv (P := Live) _ (fun ci _ s hs => ?_) _ h
  split
  · exact hs
  · exact hs
  · exact Live.setTypedByColIndex hs _ _ _ trivial
  · exact Live.setTypedByColIndex hs _ _ _ trivial
  · exact hs

theorem Live.setAllFloatCellsToNaN {t : Table τ} (h : Live t) : Live t.setAllFloatCellsToNaN.1 := by
  refine forEach_inv (P := Live) _ (fun ci _ s hs => ?_) _ h
  split
  · exact hs
  · exact hs
  · exact Live.setColFloatCellsToNaNByColIndex hs _
  · exact Live.setColFloatCellsToNaNByColIndex hs _
  · exact hs

theorem KeysLive.reorderTable {t : Table τ} (hw : WF t) (h : KeysLive t) {σ : List Nat} (hσ : σ.Perm (List.range t.colNames.length)) :
    KeysLive (reorderTable t σ) := fun k hk => (HasColT_reorderTable hw hσ _ _).2 (h k hk)

theorem KeysLive.reorderCols {t : Table τ} (hw : WF t) (h : KeysLive t) (ns : List GoStr) : KeysLive (t.reorderCols ns).1 := by
  rcases reorderCols_cases hw ns with ⟨σ, _, hσ, _, e⟩ | ⟨_, _, e⟩
  · rw [e]; exact h.reorderTable hw hσ
  · rw [e]; exact h

theorem KeysLive.reorderColsByColIndex {t : Table τ} (hw : WF t) (h : KeysLive t) (order : List Int) :
    KeysLive (t.reorderColsByColIndex order).1 := by
  rcases reorderColsByColIndex_cases hw order with ⟨σ, _, hσ, e⟩ | ⟨_, e⟩
  · rw [e]; exact h.reorderTable hw hσ
  · rw [e]; exact h

theorem KeysLive.orderColsBySortKeys {t : Table τ} (hw : WF t) (h : KeysLive t) : KeysLive t.orderColsBySortKeys.1 := by
  simp only [Table.orderColsBySortKeys]
  split
  · exact h
  · split
    · exact h
    · exact h
    · exact h.reorderCols hw _

theorem Live.appendSortKey {t : Table τ} (h : Live t) (n : GoStr) : Live (t.appendSortKey n).1 := by
  refine ⟨h.1.appendSortKey n, ?_⟩
  simp only [Table.appendSortKey]
  rcases getColInfo_cases h.1 n with ⟨i, ty, hi, hty, e⟩ | ⟨_, e⟩
  · rw [e]
    simp only
    split
    · exact h.2
    · intro k hk
      simp only [List.mem_append, List.mem_singleton] at hk
      rcases hk with hk | rfl
      · exact h.2 k hk
      · exact ⟨i, hi, hty⟩
  · rw [e]; exact h.2

theorem Live.setSortKeys {t : Table τ} (h : WF t) (ns : List GoStr) : Live (t.setSortKeys ns).1 :=
  forEach_inv (P := Live) _ (fun _ _ _ hs => Live.appendSortKey hs _) _ ⟨h.withKeys (by simp), by intro k hk; cases hk⟩

theorem KeysLive.setSortKeyReverse {t : Table τ} (h : KeysLive t) (n : GoStr) : KeysLive (t.setSortKeyReverse n).1 := by
  simp only [Table.setSortKeyReverse]
  split
  · exact h
  · have : KeysLive { t with sortKeys := t.sortKeys.map (fun k => if k.colName = n then { k with reverse := true } else k) } := by
      intro k hk
      simp only [List.mem_map] at hk
      obtain ⟨k', hk', rfl⟩ := hk
      have := h k' hk'
      split <;> exact this
    split <;> exact this

theorem KeysLive.setSortKeysReverse {t : Table τ} (h : KeysLive t) (ns : List GoStr) : KeysLive (t.setSortKeysReverse ns).1 :=
  forEach_inv (P := KeysLive) _ (fun _ _ _ hs => KeysLive.setSortKeyReverse hs _) _ h

theorem KeysLive.setSortKeysFromTable {t : Table τ} (hw : WF t) (h : KeysLive t) (f : Table τ) : KeysLive (t.setSortKeysFromTable f).1 := by
  simp only [Table.setSortKeysFromTable]
  split
  · exact h
  · have h1 := (Live.setSortKeys hw (f.sortKeys.map (·.colName))).2
    revert h1
    generalize t.setSortKeys (f.sortKeys.map (·.colName)) = r
    rcases r with ⟨t1, o⟩
    intro h1
    cases o with
    | ok u => exact KeysLive.setSortKeysReverse (t := t1) h1 _
    | err e => exact h1
    | panic => exact h1

theorem KeysLive.deleteSortKey {t : Table τ} (h : KeysLive t) (n : GoStr) : KeysLive (t.deleteSortKey n).1 := by
  simp only [Table.deleteSortKey]
  split
  · exact h
  · exact h
  · split
    · rename_i ks hks
      exact h.grow (fun _ _ h => h) (fun k hk => deleteKeyLoop_sub hks k hk)
    · exact h

theorem KeysLive.sortByKeys {t : Table τ} (h : KeysLive t) (srt : GoSort (List (Cell τ))) (lower : GoStr → GoStr) :
    KeysLive (t.sortByKeys srt lower).1 := by
  simp only [Table.sortByKeys]
  split
  · exact h
  · exact h.frame rfl rfl rfl

theorem KeysLive.sort {t : Table τ} (hw : WF t) (h : KeysLive t) (srt : GoSort (List (Cell τ))) (lower : GoStr → GoStr) (ns : List GoStr) :
    KeysLive (t.sort srt lower ns).1 := by
  simp only [Table.sort]
  have h1 : KeysLive (if ns.length > 0 then t.setSortKeys ns else (t, Out.ok ())).1 := by
    split
    · exact (Live.setSortKeys hw ns).2
    · exact h
  revert h1
  generalize (if ns.length > 0 then t.setSortKeys ns else (t, Out.ok ())) = r
  rcases r with ⟨t1, o⟩
  intro h1
  cases o with
  | ok u =>
    simp only
    split
    · exact h1
    · exact KeysLive.sortByKeys (t := t1) h1 _ _
  | err e => exact h1
  | panic => exact h1

theorem KeysLive.sortSimple {t : Table τ} (hw : WF t) (h : KeysLive t) (srt : GoSort (List (Cell τ))) (lower : GoStr → GoStr) (ns : List GoStr) :
    KeysLive (t.sortSimple srt lower ns).1 := by
  simp only [Table.sortSimple]
  split
  · exact h
  · have h1 := (Live.setSortKeys hw ns).2
    revert h1
    generalize t.setSortKeys ns = r
    rcases r with ⟨t1, o⟩
    intro h1
    cases o with
    | ok u => exact KeysLive.sortByKeys (t := t1) h1 _ _
    | err e => exact h1
    | panic => exact h1

theorem Live.appendColFrom (nt : Nat → Nat → τ) {t : Table τ} (h : Live t) (info : GoStr × ColType) :
    Live (Table.appendColFrom nt info t).1 := by
  refine ⟨h.1.appendColFrom nt info, ?_⟩
  simp only [Table.appendColFrom]
  have h1 := h.2.appendCol nt h.1 info.1 info.2.name
  revert h1
  generalize t.appendCol nt info.1 info.2.name = r
  rcases r with ⟨t1, o⟩
  intro h1
  cases o with
  | ok u => exact h1
  | panic => exact h1
  | err e =>
    simp only
    split
    · split
      · exact h1
      · exact h1
      · split <;> exact h1
    · exact h1
    · exact h1

theorem Live.appendColsFromTable (nt : Nat → Nat → τ) {t : Table τ} (h : Live t) (f : Table τ) :
    Live (t.appendColsFromTable nt f).1 := by
  simp only [Table.appendColsFromTable]
  split
  · exact h
  · split
    · exact h
    · exact h
    · exact forEach_inv (P := Live) _ (fun _ _ _ hs => Live.appendColFrom nt hs _) _ h

theorem Live.copyCellStep {t f : Table τ} (h : Live t) (hf : WF f) (fr tr : Int) (fc : Nat) :
    Live (Table.copyCellStep f fr tr fc t).1 := by
  refine ⟨h.1.copyCellStep hf fr tr fc, ?_⟩
  simp only [Table.copyCellStep]
  split
  · exact h.2
  · exact h.2
  · split
    · exact h.2
    · exact h.2
    · rename_i v hv
      exact h.2.setVal h.1 _ _ (getValByColIndex_real hf hv)

theorem Live.copyRowStep (nt : Nat → Nat → τ) {t f : Table τ} (h : Live t) (hf : WF f) (fr tr : Int) :
    Live (Table.copyRowStep nt f fr tr t).1 := by
  simp only [Table.copyRowStep]
  have h1 : Live (t.appendRow nt).1 := ⟨h.1.appendRow nt, h.2.appendRow nt h.1⟩
  revert h1
  generalize t.appendRow nt = r
  rcases r with ⟨t1, o⟩
  intro h1
  cases o with
  | ok u => exact forEach_inv (P := Live) _ (fun _ _ _ hs => Live.copyCellStep hs hf _ _ _) _ h1
  | err e => exact h1
  | panic => exact h1

theorem Live.appendRowsFromTable (nt : Nat → Nat → τ) {t f : Table τ} (h : Live t) (hf : WF f) (a b : Int) :
    Live (t.appendRowsFromTable nt f a b).1 := by
  simp only [Table.appendRowsFromTable]
  split
  · exact h
  split
  · exact h
  · exact forEach_inv (P := Live) _ (fun _ _ _ hs => Live.copyRowStep nt hs hf _ _) _ h

end Verif
