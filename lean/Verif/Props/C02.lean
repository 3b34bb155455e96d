import Verif.Props.C03
import Verif.Props.C01
import Verif.Model.Sort

/-!
# C02 SwapCols keeps the table well-formed and moves the data with the column

False: only the headings are exchanged, the cells stay where they are (`C02_false`, `C02_false_same_type`).
`C02_partial` says what does hold.
-/

namespace Verif
open Table

variable {τ : Type}

theorem swapRows?_eq {α : Type} {l : List α} {i j : Nat} {x y : α} (hx : l[i]? = some x) (hy : l[j]? = some y) :
    swapRows? l i j = some ((l.set i y).set j x) := by
  simp [swapRows?, hx, hy]

theorem getElem?_swap {α : Type} {l : List α} {i j : Nat} {x y : α} (hx : l[i]? = some x) (hy : l[j]? = some y) (k : Nat) :
    ((l.set i y).set j x)[k]? = l[if k = i then j else if k = j then i else k]? := by
  have hi := (List.getElem?_eq_some_iff.1 hx).1
  have hj := (List.getElem?_eq_some_iff.1 hy).1
  simp only [List.getElem?_set, List.length_set]
  grind

/-- `t` with the headings of columns `i` and `j` exchanged. -/
def swapHeadings (t : Table τ) (i j : Nat) (n1 n2 : GoStr) (ty1 ty2 : ColType) : Table τ :=
  { t with colNames := (t.colNames.set i n2).set j n1, colTypes := (t.colTypes.set i ty2).set j ty1, colMap := swapMap t.colMap n1 n2 }

theorem swapCols_eq {t : Table τ} (h : WF t) {i j : Nat} {n1 n2 : GoStr} {ty1 ty2 : ColType} (hi : t.colNames[i]? = some n1)
    (hj : t.colNames[j]? = some n2) (hti : t.colTypes[i]? = some ty1) (htj : t.colTypes[j]? = some ty2) (hne : n1 ≠ n2) :
    t.swapCols n1 n2 = (swapHeadings t i j n1 n2 ty1 ty2, .ok ()) := by
  simp only [swapCols, h.colIndex_ok.2 hi, h.colIndex_ok.2 hj, if_neg hne, swapRows?_eq hi hj, swapRows?_eq hti htj, swapHeadings]

theorem swapMap_comm_get? (m : GoMap) {n1 n2 : GoStr} (hne : n1 ≠ n2) {i j : Nat} (h1 : m.get? n1 = some i) (h2 : m.get? n2 = some j)
    (n : GoStr) : (swapMap m n1 n2).get? n = if n = n1 then some j else if n = n2 then some i else m.get? n := by
  simp only [swapMap, h1, h2, Option.getD_some, GoMap.get?_insert]
  by_cases e1 : n = n1
  · subst e1; simp [hne]
  · simp [e1]

theorem swapHeadings_mapIff {t : Table τ} (h : WF t) {i j : Nat} {n1 n2 : GoStr} {ty1 ty2 : ColType} (hi : t.colNames[i]? = some n1)
    (hj : t.colNames[j]? = some n2) (hne : n1 ≠ n2) (n : GoStr) (k : Nat) :
    (swapMap t.colMap n1 n2).get? n = some k ↔ ((t.colNames.set i n2).set j n1)[k]? = some n := by
  have hij : i ≠ j := by rintro rfl; rw [hi] at hj; exact hne (Option.some.inj hj)
  rw [swapMap_comm_get? _ hne ((h.mapIff _ _).2 hi) ((h.mapIff _ _).2 hj), getElem?_swap hi hj]
  have hm := h.mapIff n k
  have hm1 := fun k => h.mapIff n1 k
  by_cases e1 : n = n1
  · subst e1
    have : ∀ q, t.colNames[q]? = some n → q = i := fun q hq => h.map_unique hq hi
    simp only [if_true]
    grind
  · by_cases e2 : n = n2
    · subst e2
      have : ∀ q, t.colNames[q]? = some n → q = j := fun q hq => h.map_unique hq hj
      simp only [e1, if_false, if_true]
      grind
    · simp only [e1, e2, if_false]
      rw [hm]
      grind

/-- **C02**, what holds: for two distinct columns the call succeeds and exchanges the two *headings*: name and type of every column, and the
name lookup, are consistent with the exchange; no row changes.  So afterwards each of the two names reads the other's old cells.
The table stays well-formed if it has no rows, or the two columns have the same type; only without rows is the claim itself true.
Missing for the full claim: moving the cells, which the code does not do. -/
theorem C02_partial (t : Table τ) (h : WF t) (i j : Nat) (n1 n2 : GoStr) (ty1 ty2 : ColType)
    (hi : t.colNames[i]? = some n1) (hj : t.colNames[j]? = some n2) (hti : t.colTypes[i]? = some ty1) (htj : t.colTypes[j]? = some ty2)
    (hij : i ≠ j) :
    (t.swapCols n1 n2).2 = .ok () ∧
    (∀ k, (t.swapCols n1 n2).1.colNames[k]? = t.colNames[if k = i then j else if k = j then i else k]? ∧
      (t.swapCols n1 n2).1.colTypes[k]? = t.colTypes[if k = i then j else if k = j then i else k]?) ∧
    (t.swapCols n1 n2).1.rows = t.rows ∧
    (∀ n ty, HasColT (t.swapCols n1 n2).1 n ty ↔ HasColT t n ty) ∧
    (∀ r x, (At (t.swapCols n1 n2).1 n1 r x ↔ At t n2 r x) ∧ (At (t.swapCols n1 n2).1 n2 r x ↔ At t n1 r x)) ∧
    (∀ n r x, n ≠ n1 → n ≠ n2 → (At (t.swapCols n1 n2).1 n r x ↔ At t n r x)) ∧
    (t.rows = [] ∨ ty1 = ty2 → WF (t.swapCols n1 n2).1) := by
  have hne : n1 ≠ n2 := by rintro rfl; exact hij (h.map_unique hi hj)
  have hnm := getElem?_swap hi hj
  have hnt := getElem?_swap hti htj
  rw [swapCols_eq h hi hj hti htj hne]
  refine ⟨rfl, fun k => ⟨hnm k, hnt k⟩, rfl, ?_, ?_, ?_, ?_⟩
  · intro n ty
    simp only [HasColT, swapHeadings, hnm, hnt]
    constructor
    · rintro ⟨k, h1, h2⟩; exact ⟨_, h1, h2⟩
    · rintro ⟨k, h1, h2⟩
      refine ⟨if k = i then j else if k = j then i else k, ?_, ?_⟩ <;> grind
  · intro r x
    simp only [At, swapHeadings, hnm]
    constructor
    · constructor
      · rintro ⟨k, row, h1, h2, h3⟩
        have := h.map_unique h1 hi
        have hk : k = j := by grind
        subst hk
        exact ⟨k, row, hj, h2, h3⟩
      · rintro ⟨k, row, h1, h2, h3⟩
        have hk := h.map_unique h1 hj
        subst hk
        exact ⟨k, row, by rw [if_neg (Ne.symm hij), if_pos rfl]; exact hi, h2, h3⟩
    · constructor
      · rintro ⟨k, row, h1, h2, h3⟩
        have := h.map_unique h1 hj
        have hk : k = i := by grind
        subst hk
        exact ⟨k, row, hi, h2, h3⟩
      · rintro ⟨k, row, h1, h2, h3⟩
        have hk := h.map_unique h1 hi
        subst hk
        exact ⟨k, row, by rw [if_pos rfl]; exact hj, h2, h3⟩
  · intro n r x hn1 hn2
    simp only [At, swapHeadings, hnm]
    constructor
    · rintro ⟨k, row, h1, h2, h3⟩
      have hk : k ≠ i ∧ k ≠ j := by
        constructor
        · rintro rfl; rw [if_pos rfl, hj] at h1; exact hn2 (Option.some.inj h1).symm
        · rintro rfl; rw [if_neg (Ne.symm hij), if_pos rfl, hi] at h1; exact hn1 (Option.some.inj h1).symm
      rw [if_neg hk.1, if_neg hk.2] at h1
      exact ⟨k, row, h1, h2, h3⟩
    · rintro ⟨k, row, h1, h2, h3⟩
      have hk : k ≠ i ∧ k ≠ j := by
        constructor
        · rintro rfl; rw [hi] at h1; exact hn1 (Option.some.inj h1).symm
        · rintro rfl; rw [hj] at h1; exact hn2 (Option.some.inj h1).symm
      exact ⟨k, row, by rw [if_neg hk.1, if_neg hk.2]; exact h1, h2, h3⟩
  · intro hcase
    have hmem : ∀ n, n ∈ (t.colNames.set i n2).set j n1 → n ∈ t.colNames := by
      intro n hn
      obtain ⟨k, hk⟩ := List.getElem?_of_mem hn
      rw [hnm] at hk
      exact List.mem_of_getElem? hk
    exact {
      namesNodup := by
        rw [List.nodup_iff_pairwise_ne] at *
        refine List.pairwise_iff_getElem.2 ?_
        intro a b ha hb hab e
        have ha' := List.getElem?_eq_getElem ha
        have hb' := List.getElem?_eq_getElem hb
        simp only [swapHeadings] at ha' hb'
        rw [hnm] at ha' hb'
        simp only [swapHeadings] at e
        rw [e] at ha'
        have := h.map_unique ha' hb'
        grind
      namesValid := fun n hn => h.namesValid n (hmem n hn)
      typesLen := by simp only [swapHeadings, List.length_set]; exact h.typesLen
      mapKeys := by
        simp only [swapHeadings, swapMap]
        exact GoMap.keys_insert_nodup _ _ (GoMap.keys_insert_nodup _ _ h.mapKeys)
      mapIff := fun n k => swapHeadings_mapIff (ty1 := ty1) (ty2 := ty2) h hi hj hne n k
      rowsOK := by
        intro row hrow
        rcases hcase with he | rfl
        · simp only [swapHeadings, he] at hrow; cases hrow
        · have hr := h.rowsOK row hrow
          refine ⟨by simp only [swapHeadings, List.length_set]; exact hr.1, ?_⟩
          intro k ty c hk hc
          simp only [swapHeadings] at hk
          rw [hnt] at hk
          refine hr.2 k ty c ?_ hc
          grind
      nilEmpty := by
        intro e
        have := h.nilEmpty e
        rw [this.1] at hi; simp at hi
      nameValid := h.nameValid
      keysOK := h.keysOK }

theorem C02_partial_byColIndex (t : Table τ) (h : WF t) (i j : Nat) (n1 n2 : GoStr)
    (hi : t.colNames[i]? = some n1) (hj : t.colNames[j]? = some n2) (hij : i ≠ j) :
    ∃ m, t.swapColsByColIndex i j = ({ (t.swapCols n1 n2).1 with colMap := m }, .ok ()) ∧
      ∀ n, m.get? n = (t.swapCols n1 n2).1.colMap.get? n := by
  have hne : n1 ≠ n2 := by rintro rfl; exact hij (h.map_unique hi hj)
  obtain ⟨ty1, hti⟩ := h.type_of_name hi
  obtain ⟨ty2, htj⟩ := h.type_of_name hj
  have h1 := (List.getElem?_eq_some_iff.1 hi).1
  have h2 := (List.getElem?_eq_some_iff.1 hj).1
  have e1 := getElem?_swap hi hj i
  have e2 := getElem?_swap hi hj j
  rw [if_pos rfl, hj] at e1
  rw [if_neg (Ne.symm hij), if_pos rfl, hi] at e2
  rw [swapCols_eq h hi hj hti htj hne]
  refine ⟨swapMap t.colMap n2 n1, ?_, ?_⟩
  · have hcc : t.colCount = t.colNames.length := rfl
    simp only [swapColsByColIndex]
    rw [if_neg (by omega), if_neg (by omega), if_neg (by omega)]
    simp only [Int.toNat_natCast, swapRows?_eq hi hj, swapRows?_eq hti htj, e1, e2, swapHeadings]
  · intro n
    have a := (h.mapIff _ _).2 hi
    have b := (h.mapIff _ _).2 hj
    simp only [swapHeadings, swapMap_comm_get? _ hne a b, swapMap_comm_get? _ (Ne.symm hne) b a]
    grind

/-- **C02** is false: after swapping `name` and `age` of the example table, cell (`name`, 0) holds the int 30, in a string column. -/
theorem C02_false : At Ex.t (gs! "name") 0 (.str (gs! "bob")) ∧ (Ex.t.swapCols (gs! "name") (gs! "age")).2 = .ok () ∧
    (Ex.t.swapCols (gs! "name") (gs! "age")).1.getVal (gs! "name") 0 = .ok (.int .int 30) ∧
    HasColT (Ex.t.swapCols (gs! "name") (gs! "age")).1 (gs! "name") .string ∧
    ¬ WF (Ex.t.swapCols (gs! "name") (gs! "age")).1 := by
  refine ⟨?_, by decide +kernel, by decide +kernel, ⟨1, by decide +kernel, by decide +kernel⟩, ?_⟩
  · rw [Ex.t_eq]; exact ⟨0, _, rfl, rfl, rfl⟩
  · intro h
    have := (h.rowsOK [.str (gs! "bob"), .int .int 30, .f64 0] (by decide +kernel)).2 0 .int (.str (gs! "bob")) (by decide +kernel) rfl
    exact this

/-- The example table with a second int column `h`. -/
def Ex.t2 : Table Unit := Op.run Ex.t [.appendCol (fun _ _ => ()) (gs! "h") (gs! "int"), .setVal (gs! "h") 0 (.int .int 2)]

theorem Ex.wf2 : WF Ex.t2 := C01_history _ Ex.wf _ (by
  intro op hop
  simp only [List.mem_cons, List.not_mem_nil, or_false] at hop
  rcases hop with rfl | rfl
  · trivial
  · exact ⟨by decide, by decide⟩)

/-- **C02** is false for columns of the same type as well: the table stays well-formed but the values change between the names. -/
theorem C02_false_same_type : ∃ t : Table Unit, WF t ∧ (t.swapCols (gs! "age") (gs! "h")).2 = .ok () ∧
    WF (t.swapCols (gs! "age") (gs! "h")).1 ∧
    t.getVal (gs! "age") 0 = .ok (.int .int 30) ∧ (t.swapCols (gs! "age") (gs! "h")).1.getVal (gs! "age") 0 = .ok (.int .int 2) :=
  have hp := C02_partial Ex.t2 Ex.wf2 1 3 (gs! "age") (gs! "h") .int .int (by decide +kernel) (by decide +kernel) (by decide +kernel)
    (by decide +kernel) (by decide)
  ⟨Ex.t2, Ex.wf2, hp.1, hp.2.2.2.2.2.2 (.inr rfl), by decide +kernel, by decide +kernel⟩

-- without rows the claim is true; the hypotheses are met
example : WF ((Ex.t.deleteRowsAll).1.swapCols (gs! "name") (gs! "w")).1 :=
  (C02_partial _ Ex.wf.deleteRowsAll 0 2 (gs! "name") (gs! "w") .string .float64 (by decide +kernel) (by decide +kernel)
    (by decide +kernel) (by decide +kernel) (by decide)).2.2.2.2.2.2 (.inl (by decide +kernel))

end Verif
