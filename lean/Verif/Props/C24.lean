import Verif.Props.C12
import Verif.Props.C18
import Batteries.Data.List.Perm

/-!
# C24 OrderColsBySortKeys moves key columns to the front

With distinct existing key columns the claim holds (`C24_partial`).  In every other case the call panics (`C24_otherwise`), which makes
"it never panics" false (`C24_false`).
-/

namespace Verif
open Table

variable {τ : Type}

theorem fillKeys_eq (ks : List SortKey) (i : Nat) (l : List GoStr) (h : i + ks.length ≤ l.length) :
    fillKeys ks i l = some (l.take i ++ ks.map (·.colName) ++ l.drop (i + ks.length)) := by
  induction ks generalizing i l with
  | nil => simp [fillKeys]
  | cons k ks ih =>
    simp only [List.length_cons] at h
    simp only [fillKeys, goSet?_nat l i k.colName (by omega)]
    rw [ih (i + 1) _ (by simp; omega)]
    congr 1
    rw [List.take_set, List.drop_set_of_lt (by omega)]
    rw [List.take_add_one, List.getElem?_eq_getElem (show i < l.length by omega)]
    simp only [Option.toList_some, List.length_cons, List.map_cons]
    rw [List.set_append_right _ _ (by simp; omega)]
    have : i - (List.take i l).length = 0 := by simp; omega
    rw [this, show i + 1 + ks.length = i + (ks.length + 1) by omega]
    simp

theorem fillKeys_none (ks : List SortKey) (i : Nat) (l : List GoStr) (hi : i ≤ l.length) (h : l.length < i + ks.length) :
    fillKeys ks i l = none := by
  induction ks generalizing i l with
  | nil => simp at h; omega
  | cons k ks ih =>
    simp only [List.length_cons] at h
    simp only [fillKeys]
    by_cases hlt : i < l.length
    · rw [goSet?_nat l i _ hlt]
      exact ih (i + 1) _ (by simp; omega) (by simp; omega)
    · rw [goSet?_none.2 (by omega)]

/-- The names that are no sort key. -/
def nonKeys (t : Table τ) (ns : List GoStr) : List GoStr := ns.filter (fun n => n ∉ t.sortKeys.map (·.colName))

theorem isSortKey_eq {t : Table τ} (h : WF t) {n : GoStr} (hn : n ∈ t.colNames) :
    t.isSortKey n = .ok (decide (n ∈ t.sortKeys.map (·.colName))) := by
  simp only [isSortKey, h.hasCol_ok hn, Out.bind]
  congr 1
  rw [Bool.eq_iff_iff]
  simp only [List.any_eq_true, decide_eq_true_eq, List.mem_map]

theorem fillRest_eq {t : Table τ} (h : WF t) (ns : List GoStr) (hns : ∀ n ∈ ns, n ∈ t.colNames) (row : Nat) (l : List GoStr)
    (hl : row + (nonKeys t ns).length ≤ l.length) :
    t.fillRest ns row l = .ok (l.take row ++ nonKeys t ns ++ l.drop (row + (nonKeys t ns).length)) := by
  induction ns generalizing row l with
  | nil => simp [fillRest, nonKeys]
  | cons n ns ih =>
    have hns' : ∀ n ∈ ns, n ∈ t.colNames := fun n' h' => hns n' (by simp [h'])
    simp only [fillRest, isSortKey_eq h (hns n (by simp)), Out.bind, decide_eq_true_eq]
    by_cases hk : n ∈ t.sortKeys.map (·.colName)
    · have e : nonKeys t (n :: ns) = nonKeys t ns := by
        simp only [nonKeys]; rw [List.filter_cons_of_neg (by simpa using hk)]
      rw [if_pos hk, e]
      rw [e] at hl
      exact ih hns' row l hl
    · have e : nonKeys t (n :: ns) = n :: nonKeys t ns := by
        simp only [nonKeys]; rw [List.filter_cons_of_pos (by simpa using hk)]
      rw [if_neg hk, e]
      rw [e, List.length_cons] at hl
      rw [goSet?_nat l row n (by omega)]
      simp only
      rw [ih hns' (row + 1) _ (by simp; omega)]
      congr 1
      rw [List.take_set, List.drop_set_of_lt (by omega)]
      rw [List.take_add_one, List.getElem?_eq_getElem (show row < l.length by omega)]
      simp only [Option.toList_some, List.length_cons]
      rw [List.set_append_right _ _ (by simp; omega)]
      have : row - (List.take row l).length = 0 := by simp; omega
      rw [this, show row + 1 + (nonKeys t ns).length = row + ((nonKeys t ns).length + 1) by omega]
      simp

theorem fillRest_panic {t : Table τ} (h : WF t) (ns : List GoStr) (hns : ∀ n ∈ ns, n ∈ t.colNames) (row : Nat) (l : List GoStr)
    (hr : row ≤ l.length) (hl : l.length < row + (nonKeys t ns).length) : t.fillRest ns row l = .panic := by
  induction ns generalizing row l with
  | nil => simp [nonKeys] at hl; omega
  | cons n ns ih =>
    have hns' : ∀ n ∈ ns, n ∈ t.colNames := fun n' h' => hns n' (by simp [h'])
    simp only [fillRest, isSortKey_eq h (hns n (by simp)), Out.bind, decide_eq_true_eq]
    by_cases hk : n ∈ t.sortKeys.map (·.colName)
    · have e : nonKeys t (n :: ns) = nonKeys t ns := by
        simp only [nonKeys]; rw [List.filter_cons_of_neg (by simpa using hk)]
      rw [if_pos hk]
      rw [e] at hl
      exact ih hns' row l hr hl
    · have e : nonKeys t (n :: ns) = n :: nonKeys t ns := by
        simp only [nonKeys]; rw [List.filter_cons_of_pos (by simpa using hk)]
      rw [if_neg hk]
      rw [e, List.length_cons] at hl
      by_cases hlt : row < l.length
      · rw [goSet?_nat l row n hlt]
        exact ih hns' (row + 1) _ (by simp; omega) (by simp; omega)
      · rw [goSet?_none.2 (by omega)]

theorem nonKeys_length (t : Table τ) (ns : List GoStr) :
    (nonKeys t ns).length + (ns.filter (fun n => n ∈ t.sortKeys.map (·.colName))).length = ns.length := by
  simp only [nonKeys]
  induction ns with
  | nil => rfl
  | cons n ns ih =>
    by_cases hk : n ∈ t.sortKeys.map (·.colName)
    · rw [List.filter_cons_of_neg (by simpa using hk), List.filter_cons_of_pos (by simpa using hk)]
      simp only [List.length_cons]; omega
    · rw [List.filter_cons_of_pos (by simpa using hk), List.filter_cons_of_neg (by simpa using hk)]
      simp only [List.length_cons]; omega

/-- The sort keys are distinct existing columns. -/
def KeysDistinct (t : Table τ) : Prop := (t.sortKeys.map (·.colName)).Nodup ∧ ∀ k ∈ t.sortKeys, k.colName ∈ t.colNames

theorem keysDistinct_iff {t : Table τ} (h : WF t) :
    KeysDistinct t ↔ t.sortKeys.length + (nonKeys t t.colNames).length ≤ t.colNames.length := by
  have hlen := nonKeys_length t t.colNames
  have hF : (t.colNames.filter (fun n => n ∈ t.sortKeys.map (·.colName))).Nodup := h.namesNodup.filter _
  have hsub : (t.colNames.filter (fun n => n ∈ t.sortKeys.map (·.colName))) ⊆ t.sortKeys.map (·.colName) := by
    intro n hn; simpa using (List.mem_filter.1 hn).2
  constructor
  · rintro ⟨hnd, hin⟩
    have : t.sortKeys.map (·.colName) ⊆ t.colNames.filter (fun n => n ∈ t.sortKeys.map (·.colName)) := by
      intro n hn
      refine List.mem_filter.2 ⟨?_, by simpa using hn⟩
      obtain ⟨k, hk, rfl⟩ := List.mem_map.1 hn
      exact hin k hk
    have := (List.subperm_of_subset hnd this).length_le
    simp only [List.length_map] at this
    omega
  · intro hle
    have hp := (List.subperm_of_subset hF hsub).perm_of_length_le (by simp only [List.length_map]; omega)
    refine ⟨hp.nodup_iff.1 hF, fun k hk => ?_⟩
    have := hp.mem_iff.2 (List.mem_map.2 ⟨k, hk, rfl⟩)
    exact (List.mem_filter.1 this).1

/-- The order the call asks for is a rearrangement of the columns. -/
theorem C24_order (t : Table τ) (h : WF t) (hk : KeysDistinct t) :
    t.orderColsBySortKeys = t.reorderCols (t.sortKeys.map (·.colName) ++ t.colNames.filter (fun n => n ∉ t.sortKeys.map (·.colName))) ∧
    (t.sortKeys.map (·.colName) ++ t.colNames.filter (fun n => n ∉ t.sortKeys.map (·.colName))).Perm t.colNames := by
  have hle := (keysDistinct_iff h).1 hk
  have hlen := nonKeys_length t t.colNames
  have hcc : t.colCount = t.colNames.length := rfl
  have hsum : t.sortKeys.length + (nonKeys t t.colNames).length = t.colNames.length := by
    have hsub : (t.colNames.filter (fun n => n ∈ t.sortKeys.map (·.colName))) ⊆ t.sortKeys.map (·.colName) := by
      intro n hn; simpa using (List.mem_filter.1 hn).2
    have := (List.subperm_of_subset (h.namesNodup.filter _) hsub).length_le
    simp only [List.length_map] at this
    omega
  have hunf : t.orderColsBySortKeys = t.reorderCols (t.sortKeys.map (·.colName) ++ nonKeys t t.colNames) := by
    simp only [orderColsBySortKeys]
    rw [fillKeys_eq _ _ _ (by simp [hcc]; omega)]
    simp only
    rw [fillRest_eq h _ (fun n hn => hn) _ _ (by simp [hcc]; omega)]
    simp only
    congr 1
    rw [List.take_append_of_le_length (by simp)]
    rw [List.drop_eq_nil_of_le (by simp [hcc]; omega)]
    simp [List.take_of_length_le]
  have hperm : (t.sortKeys.map (·.colName) ++ nonKeys t t.colNames).Perm t.colNames := by
    have hnd : (t.sortKeys.map (·.colName) ++ nonKeys t t.colNames).Nodup := by
      rw [List.nodup_append]
      refine ⟨hk.1, h.namesNodup.filter _, ?_⟩
      rintro a ha b hb rfl
      have := (List.mem_filter.1 hb).2
      simp only [decide_eq_true_eq] at this
      exact this ha
    have hss : (t.sortKeys.map (·.colName) ++ nonKeys t t.colNames) ⊆ t.colNames := by
      intro n hn
      rcases List.mem_append.1 hn with hn | hn
      · obtain ⟨k, hk', rfl⟩ := List.mem_map.1 hn; exact hk.2 k hk'
      · exact (List.mem_filter.1 hn).1
    exact (List.subperm_of_subset hnd hss).perm_of_length_le (by simp; omega)
  exact ⟨hunf, hperm⟩

/-- **C24**, for distinct existing key columns: the call succeeds; the key columns come first in key order, then the other columns in their
old order; every cell keeps its column name and row, every column its type, the keys stay.
Missing for the full claim: "it never panics" for other key lists, which is false. -/
theorem C24_partial (t : Table τ) (h : WF t) (hk : KeysDistinct t) :
    t.orderColsBySortKeys.2 = .ok () ∧
    t.orderColsBySortKeys.1.colNames =
      t.sortKeys.map (·.colName) ++ t.colNames.filter (fun n => n ∉ t.sortKeys.map (·.colName)) ∧
    (∀ n r x, At t.orderColsBySortKeys.1 n r x ↔ At t n r x) ∧
    (∀ n ty, HasColT t.orderColsBySortKeys.1 n ty ↔ HasColT t n ty) ∧
    t.orderColsBySortKeys.1.rows.length = t.rows.length ∧
    t.orderColsBySortKeys.1.sortKeys = t.sortKeys ∧ t.orderColsBySortKeys.1.name = t.name ∧ WF t.orderColsBySortKeys.1 := by
  obtain ⟨hunf, hperm⟩ := C24_order t h hk
  rw [hunf]
  rcases reorderCols_cases h (t.sortKeys.map (·.colName) ++ t.colNames.filter (fun n => n ∉ t.sortKeys.map (·.colName))) with ⟨σ, _, hσ, hpick, e⟩ | ⟨hno, _⟩
  · rw [e]
    refine ⟨rfl, hpick, At_reorderTable h hσ, HasColT_reorderTable h hσ, by simp [reorderTable], rfl, rfl, h.reorderTable hσ⟩
  · exact absurd hperm hno

/-- If the sort keys are not distinct existing columns the call panics. -/
theorem C24_otherwise (t : Table τ) (h : WF t) (hk : ¬ KeysDistinct t) : t.orderColsBySortKeys = (t, .panic) := by
  rw [keysDistinct_iff h] at hk
  have hcc : t.colCount = t.colNames.length := rfl
  simp only [orderColsBySortKeys]
  by_cases hle : t.sortKeys.length ≤ t.colNames.length
  · rw [fillKeys_eq _ _ _ (by simp [hcc]; omega)]
    simp only
    rw [fillRest_panic h _ (fun n hn => hn) _ _ (by simp) (by simp [hcc]; omega)]
  · rw [fillKeys_none _ _ _ (by simp) (by simp [hcc]; omega)]

/-- "It never panics" is false: two keys on the same column of a three column table. -/
theorem C24_false : ∃ t : Table Unit, WF t ∧ KeysLive t ∧ t.orderColsBySortKeys.2 = .panic :=
  ⟨(Ex.t.setSortKeys [gs! "age", gs! "age"]).1, Ex.wf.setSortKeys _, (Live.setSortKeys Ex.wf _).2, by decide +kernel⟩

example : KeysDistinct (Ex.t.setSortKeys [gs! "w", gs! "age"]).1 ∧
    (Ex.t.setSortKeys [gs! "w", gs! "age"]).1.orderColsBySortKeys.1.colNames = [gs! "w", gs! "age", gs! "name"] := by
  unfold KeysDistinct
  decide +kernel

end Verif
