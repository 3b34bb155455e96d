import Verif.Props.C18

/-!
# C22 CompareRows agrees with the order used by Sort

False as stated for reversed keys, which `CompareRows` ignores (`C22_false`).  `C22_partial` is the claim for key lists without reversed
keys; `C22_ascending` says what `CompareRows` computes in general.
-/

namespace Verif
open Table

variable {τ : Type}

/-- The same keys, all ascending. -/
def ascending (ks : List SortKey) : List SortKey := ks.map (fun k => { k with reverse := false })

theorem compareRowsLoop_eq (lower : GoStr → GoStr) {t : Table τ} (h : WF t) {i j : Nat}
    {ks : List SortKey} {as bs : List (Cell τ)} (ha : KeyCells t i ks as) (hb : KeyCells t j ks bs)
    (hta : Typed ks as) (htb : Typed ks bs) :
    t.compareRowsLoop lower i j ks = .ok (lexCmp lower (ascending ks) as bs) := by
  induction ks generalizing as bs with
  | nil => cases as <;> cases bs <;> simp_all [compareRowsLoop, ascending, lexCmp]
  | cons k ks ih =>
    cases as with
    | nil => exact ha.elim
    | cons a as =>
      cases bs with
      | nil => exact hb.elim
      | cons b bs =>
        obtain ⟨c, e, ec⟩ := compareFn_getD lower (k := { k with reverse := false }) hta.1 hta.2.1 htb.2.1
        have g1 : t.getVal k.colName i = .ok a := (getVal_ok_iff h).2 ⟨i, rfl, ha.1⟩
        have g2 : t.getVal k.colName j = .ok b := (getVal_ok_iff h).2 ⟨j, rfl, hb.1⟩
        have ec' : cmpKey lower { k with reverse := false } a b = c := by rw [ec]; rfl
        show compareRowsLoop lower t i j (k :: ks) = .ok (lexCmp lower ({ k with reverse := false } :: ascending ks) (a :: as) (b :: bs))
        rw [lexCmp_cons, ec']
        simp only at e
        simp only [compareRowsLoop, g1, g2, e, ih ha.2 hb.2 hta.2.2 htb.2.2]
        split <;> rfl

theorem ascending_keyCells {t : Table τ} {r : Nat} {ks : List SortKey} {as : List (Cell τ)} (h : KeyCells t r ks as) :
    KeyCells t r (ascending ks) as := by
  induction ks generalizing as with
  | nil => exact h
  | cons k ks ih =>
    cases as with
    | nil => exact h.elim
    | cons a as => exact ⟨h.1, ih h.2⟩

theorem ascending_typed {ks : List SortKey} {as : List (Cell τ)} (h : Typed ks as) : Typed (ascending ks) as := by
  induction ks generalizing as with
  | nil => exact h
  | cons k ks ih =>
    cases as with
    | nil => exact h.elim
    | cons a as => exact ⟨h.1, h.2.1, ih h.2.2⟩

/-- What `CompareRows` answers: the order of the two rows with every key taken as ascending.  NaN is allowed. -/
theorem C22_ascending (lower : GoStr → GoStr) (t : Table τ) (h : WF t) (hne : t.sortKeys ≠ []) (hl : KeysLive t)
    (i j : Nat) (hi : i < t.rows.length) (hj : j < t.rows.length) :
    ∃ c, t.compareRows lower i j = .ok c ∧ (c < 0 ↔ RowBefore lower t (ascending t.sortKeys) i j) ∧
      (0 < c ↔ RowBefore lower t (ascending t.sortKeys) j i) := by
  have hs : ∀ k ∈ t.sortKeys, k.colType.Sortable = true := fun k hk => (h.keysOK k hk).1
  obtain ⟨as, h1, h2⟩ := keyCells_exists h hi t.sortKeys hl hs
  obtain ⟨bs, g1, g2⟩ := keyCells_exists h hj t.sortKeys hl hs
  refine ⟨lexCmp lower (ascending t.sortKeys) as bs, ?_, ?_, ?_⟩
  · simp only [compareRows]
    have hrc : t.rowCount = t.rows.length := rfl
    rw [if_neg (by omega), if_neg (by omega), if_neg (by simpa using hne)]
    exact compareRowsLoop_eq lower h h1 g1 h2 g2
  · exact (rowBefore_iff lower h (ascending_keyCells h1) (ascending_keyCells g1) (ascending_typed h2) (ascending_typed g2)).symm
  · rw [rowBefore_iff lower h (ascending_keyCells g1) (ascending_keyCells h1) (ascending_typed g2) (ascending_typed h2),
      lexCmp_anti lower (ascending_typed h2) (ascending_typed g2)]
    omega

/-- **C22**, restricted to key lists without reversed keys: `CompareRows(i, j)` is negative exactly if row `i` comes before row `j` in the
order of `Sort` (`SortedByKeys`, C17), positive exactly if it comes after, hence zero exactly if neither.  Missing for the full claim:
reversed keys, for which it is false. -/
theorem C22_partial (lower : GoStr → GoStr) (t : Table τ) (h : WF t) (hne : t.sortKeys ≠ []) (hl : KeysLive t)
    (hrev : ∀ k ∈ t.sortKeys, k.reverse = false) (i j : Nat) (hi : i < t.rows.length) (hj : j < t.rows.length) :
    ∃ c, t.compareRows lower i j = .ok c ∧ (c < 0 ↔ RowBefore lower t t.sortKeys i j) ∧
      (0 < c ↔ RowBefore lower t t.sortKeys j i) := by
  have : ascending t.sortKeys = t.sortKeys := by
    have e : ∀ k ∈ t.sortKeys, (fun k : SortKey => ({ k with reverse := false } : SortKey)) k = id k := by
      intro k hk
      have := hrev k hk
      obtain ⟨a, b, c⟩ := k
      simp only at this
      subst this; rfl
    rw [ascending, List.map_congr_left e, List.map_id]
  have := this ▸ C22_ascending lower t h hne hl i j hi hj
  exact this

/-- **C22.** Rows outside the table, or no sort keys: an error. -/
theorem C22_errors (lower : GoStr → GoStr) (t : Table τ) (i j : Int)
    (hbad : t.sortKeys = [] ∨ ¬ (0 ≤ i ∧ i < t.rows.length) ∨ ¬ (0 ≤ j ∧ j < t.rows.length)) :
    ∃ e, t.compareRows lower i j = .err e := by
  simp only [compareRows]
  have hrc : t.rowCount = t.rows.length := rfl
  split
  · exact ⟨_, rfl⟩
  · split
    · exact ⟨_, rfl⟩
    · rename_i h1 h2
      rcases hbad with hk | hk | hk
      · exact ⟨.noSortKeys, by simp [hk]⟩
      · omega
      · omega

/-- **C22** is false with reversed keys: after `SetSortKeysReverse("age")` row 0 (age 30) comes before row 1 (age -7) in the order of Sort,
yet `CompareRows(0, 1)` is positive. -/
theorem C22_false : ∃ t : Table Unit, WF t ∧ KeysLive t ∧ RowBefore Ex.asciiLower t t.sortKeys 0 1 ∧
    t.compareRows Ex.asciiLower 0 1 = .ok 1 := by
  refine ⟨(Ex.t.setSortKeysReverse [gs! "age"]).1, Ex.wf.setSortKeysReverse _, ?_, ?_, by decide +kernel⟩
  · refine KeysLive.setSortKeysReverse ?_ _
    intro k hk
    rw [Ex.t_eq] at hk ⊢
    simp only [List.mem_singleton] at hk
    subst hk
    exact ⟨1, rfl, rfl⟩
  · rw [Ex.t_eq]
    left
    exact ⟨.int .int 30, .int .int (-7), ⟨1, _, rfl, rfl, rfl⟩, ⟨1, _, rfl, rfl, rfl⟩, by show (-7 : Int) < 30; decide⟩

-- ascending keys, all three outcomes
example : Ex.t.compareRows Ex.asciiLower 0 1 = .ok 1 ∧ Ex.t.compareRows Ex.asciiLower 1 0 = .ok (-1) ∧
    Ex.t.compareRows Ex.asciiLower 0 2 = .ok 0 := by decide +kernel
example : ∀ k ∈ Ex.t.sortKeys, k.reverse = false := by decide +kernel

end Verif
