import Verif.Model.Merge
import Verif.Lemmas.MergeRows
import Verif.Lemmas.At

/-! What one step of the merge loop does to the two rows. -/

namespace Verif

variable {τ : Type}

open Table

/-- The upper cell after the merge of two cells. -/
def upCell (v w : Cell τ) : Cell τ :=
  if v.weight = 2 then v else if w.weight = 2 then w else if v.weight = 0 then w else v

/-- The upper row after the merge of two rows in their first `C` columns. -/
def upRow (C : Nat) (a b : List (Cell τ)) : List (Cell τ) :=
  a.mapIdx (fun c v => if c < C then (match b[c]? with | some w => upCell v w | none => v) else v)

theorem upCell_or (v w : Cell τ) : upCell v w = v ∨ upCell v w = w := by
  unfold upCell; repeat' split
  all_goals simp

/-- The table with two rows replaced. -/
def twoRows (t : Table τ) (i j : Nat) (x y : List (Cell τ)) : Table τ := { t with rows := (t.rows.set i x).set j y }

theorem twoRows_low {t : Table τ} {i j : Nat} {a b : List (Cell τ)} (hi : t.rows[i]? = some a) (hj : t.rows[j]? = some b) (c : Nat)
    {v x : Cell τ} (hv : a[c]? = some v) : putCell t c j x = twoRows t i j (a.set c v) (b.set c x) := by
  have h1 : a.set c v = a := by
    obtain ⟨h, e⟩ := List.getElem?_eq_some_iff.1 hv
    rw [← e, List.set_getElem_self]
  have h2 : t.rows.set i a = t.rows := by
    obtain ⟨h, e⟩ := List.getElem?_eq_some_iff.1 hi
    rw [← e, List.set_getElem_self]
  unfold putCell twoRows
  rw [h1, h2]
  congr 1
  apply List.ext_getElem?
  intro k
  rw [List.getElem?_modify, List.getElem?_set]
  by_cases e : j = k
  · subst e
    obtain ⟨h, e⟩ := List.getElem?_eq_some_iff.1 hj
    simp [h, e]
  · simp [e]

theorem twoRows_up {t : Table τ} {i j : Nat} (hij : i ≠ j) {a b : List (Cell τ)} (hi : t.rows[i]? = some a) (hj : t.rows[j]? = some b) (c : Nat)
    {w x : Cell τ} (hw : b[c]? = some w) : putCell t c i x = twoRows t i j (a.set c x) (b.set c w) := by
  rw [twoRows_low hj hi c hw]
  unfold twoRows
  rw [List.set_comm _ _ (Ne.symm hij)]

theorem twoRows_self {t : Table τ} {i j : Nat} {a b : List (Cell τ)} (hi : t.rows[i]? = some a) (hj : t.rows[j]? = some b) :
    twoRows t i j a b = t := by
  obtain ⟨h, e⟩ := List.getElem?_eq_some_iff.1 hi
  obtain ⟨h', e'⟩ := List.getElem?_eq_some_iff.1 hj
  unfold twoRows
  subst e; subst e'
  rw [List.set_getElem_self, List.set_getElem_self]

theorem set_same {a : List (Cell τ)} {c : Nat} {v : Cell τ} (hv : a[c]? = some v) : a.set c v = a := by
  obtain ⟨h, e⟩ := List.getElem?_eq_some_iff.1 hv
  rw [← e, List.set_getElem_self]

theorem getVal_cell {t : Table τ} (h : WF t) {c i : Nat} {a : List (Cell τ)} {v : Cell τ} (hi : t.rows[i]? = some a) (hv : a[c]? = some v) :
    t.getValByColIndex (c : Int) (i : Int) = .ok v := by
  have hc : c < t.colNames.length := by rw [← h.rowLen hi]; exact (List.getElem?_eq_some_iff.1 hv).1
  obtain ⟨row, v', h1, h2, h3⟩ := getValByColIndex_nat h hc (List.getElem?_eq_some_iff.1 hi).1
  rw [hi] at h1; cases h1; rw [hv] at h2; cases h2; exact h3

theorem getTypedByColIndex_cell {t : Table τ} {c i : Nat} {a : List (Cell τ)} {v : Cell τ} {ty : ColType} (hty : t.colTypes[c]? = some ty)
    (hi : t.rows[i]? = some a) (hv : a[c]? = some v) (ht : v.HasType ty) :
    t.getTypedByColIndex ty (c : Int) (i : Int) = .ok v := by
  have h1 : t.colTypeByColIndex (c : Int) = .ok ty := colTypeByColIndex_ok.2 ⟨by omega, by simpa using hty⟩
  have h2 : t.hasRow (i : Int) = .ok () := hasRow_ok.2 ⟨by omega, by have := (List.getElem?_eq_some_iff.1 hi).1; omega⟩
  have h3 : t.getCell? (c : Int) (i : Int) = some v := getCell?_some.2 ⟨a, by omega, by omega, by simpa using hi, by simpa using hv⟩
  simp only [getTypedByColIndex, h1, Out.bind, h2, h3, ne_eq, not_true_eq_false, false_and, if_false]
  exact typeAssert_of_hasType ht (.inl rfl)

theorem setVal_cell {t : Table τ} (h : WF t) {c i : Nat} {v : Cell τ} {ty : ColType} (hty : t.colTypes[c]? = some ty)
    (hi : i < t.rows.length) (ht : v.HasType ty) : t.setValByColIndex (c : Int) (i : Int) v = (putCell t c i v, .ok ()) := by
  rcases setValByColIndex_cases h c i v (hasType_real ht) with ⟨ci, ri, ty', e1, e2, _, _, _, e⟩ | ⟨hno, _⟩
  · have : ci = c := by omega
    have : ri = i := by omega
    subst ci; subst ri; exact e
  · exact absurd ⟨c, i, ty, rfl, rfl, hty, hi, ht⟩ hno

theorem setTypedByColIndex_cell {t : Table τ} (h : WF t) {c i : Nat} {v : Cell τ} {ty : ColType} (hty : t.colTypes[c]? = some ty)
    (hi : i < t.rows.length) (ht : v.HasType ty) (hb : v ≠ .bytes none) :
    t.setTypedByColIndex ty (c : Int) (i : Int) v = (putCell t c i v, .ok ()) := by
  rcases setTypedByColIndex_cases h ty c i v ht with ⟨ci, ri, ty', e1, e2, _, _, _, _, e⟩ | ⟨hno, _⟩ | ⟨_, hno, _⟩
  · have : ci = c := by omega
    have : ri = i := by omega
    subst ci; subst ri; exact e
  · exact absurd ⟨c, i, ty, rfl, rfl, hty, hi, ht, hb⟩ hno
  · exact absurd ⟨by omega, by have := (List.getElem?_eq_some_iff.1 hty).1; omega⟩ hno

section

variable {t : Table τ} {c i j : Nat} {a b : List (Cell τ)} {v w : Cell τ}

theorem mergeSoft_eq (hij : i ≠ j) (hi : t.rows[i]? = some a) (hj : t.rows[j]? = some b) (hv : a[c]? = some v) (hw : b[c]? = some w)
    {get : Table τ → Int → Out (Cell τ)} {set : Table τ → Int → Cell τ → Table τ × Out Unit} {nz : Cell τ → Option Bool}
    (g1 : get t i = .ok v) (g2 : get t j = .ok w) (s1 : set t j v = (putCell t c j v, .ok ())) (s2 : set t i w = (putCell t c i w, .ok ()))
    (n1 : nz v = some (decide (v.weight = 2))) (n2 : nz w = some (decide (w.weight = 2))) (p1 : v.weight ≠ 0) (p2 : w.weight ≠ 0) :
    mergeSoft get set nz i j t = (twoRows t i j (a.set c (upCell v w)) (b.set c (pickCell v w)), .ok ()) := by
  simp only [mergeSoft, g1, g2, n1, n2, decide_eq_true_eq]
  by_cases h1 : v.weight = 2
  · rw [if_pos h1, s1, twoRows_low hi hj c hv]; simp [upCell, pickCell, h1]
  · rw [if_neg h1]
    by_cases h2 : w.weight = 2
    · rw [if_pos h2, s2, twoRows_up hij hi hj c hw]; simp [upCell, pickCell, h1, h2]
    · rw [if_neg h2]
      simp only [upCell, pickCell, h1, h2, p1, p2, if_false, set_same hv, set_same hw, twoRows_self hi hj]

theorem mergeFloat_eq (h : WF t) (hij : i ≠ j) (hi : t.rows[i]? = some a) (hj : t.rows[j]? = some b) (hv : a[c]? = some v) (hw : b[c]? = some w)
    (s1 : t.setValByColIndex c j v = (putCell t c j v, .ok ())) (s2 : t.setValByColIndex c i w = (putCell t c i w, .ok ()))
    (n1 : reflectFloat v = some (decide (v.weight = 1), decide (v.weight = 0)))
    (n2 : reflectFloat w = some (decide (w.weight = 1), decide (w.weight = 0))) :
    mergeFloat c i j t = (twoRows t i j (a.set c (upCell v w)) (b.set c (pickCell v w)), .ok ()) := by
  simp only [mergeFloat, getVal_cell h hi hv, getVal_cell h hj hw, n1, n2]
  have hv3 := v.weight_le; have hw3 := w.weight_le
  by_cases h1 : v.weight = 2
  · rw [if_pos (by simp [h1]), s1, twoRows_low hi hj c hv]; simp [upCell, pickCell, h1]
  · rw [if_neg (by simp; omega)]
    by_cases h2 : w.weight = 2
    · rw [if_pos (by simp [h2]), s2, twoRows_up hij hi hj c hw]; simp [upCell, pickCell, h1, h2]
    · rw [if_neg (by simp; omega)]
      by_cases h3 : v.weight = 0
      · rw [if_pos (by simp [h3]), s2, twoRows_up hij hi hj c hw]; simp [upCell, pickCell, h2, h3]
      · rw [if_neg (by simp [h3])]
        by_cases h4 : w.weight = 0
        · rw [if_pos (by simp [h4]), s1, twoRows_low hi hj c hv]; simp [upCell, pickCell, h1, h3, h4]
        · rw [if_neg (by simp [h4])]
          simp only [upCell, pickCell, h1, h2, h3, h4, if_false, set_same hv, set_same hw, twoRows_self hi hj]

theorem float_weight {ty : ColType} (hty : ty = .float32 ∨ ty = .float64) (ht : v.HasType ty) :
    reflectFloat v = some (decide (v.weight = 1), decide (v.weight = 0)) := by
  have key : ∀ x y : Bool, (x = true → y = false) →
      (x, y) = (decide ((if y then 0 else if x then 1 else 2) = 1), decide ((if y then 0 else if x then 1 else 2 : Nat) = 0)) := by
    intro x y; cases x <;> cases y <;> simp
  rcases hty with rfl | rfl
  · cases v <;> simp only [Cell.HasType] at ht
    rename_i x
    simp only [reflectFloat, Cell.weight, Option.some.injEq]
    exact key _ _ (by simp only [f32Eq, Bool.and_eq_true, Bool.not_eq_true']; exact fun h => h.1.1)
  · cases v <;> simp only [Cell.HasType] at ht
    rename_i x
    simp only [reflectFloat, Cell.weight, Option.some.injEq]
    exact key _ _ (by simp only [f64Eq, Bool.and_eq_true, Bool.not_eq_true']; exact fun h => h.1.1)

theorem int_weight {k : IntKind} {z : Int} : (Cell.int k z : Cell τ).weight ≠ 0 ∧ decide (z ≠ 0) = decide ((Cell.int k z : Cell τ).weight = 2) := by
  simp only [Cell.weight]
  split <;> rename_i h <;> simp [h]

/-- One pair of cells. -/
theorem mergeCells_eq (h : WF t) {ty : ColType} (hty : t.colTypes[c]? = some ty) (hm : ty.Mergeable = true) (hij : i ≠ j)
    (hi : t.rows[i]? = some a) (hj : t.rows[j]? = some b) (hv : a[c]? = some v) (hw : b[c]? = some w) :
    mergeCells c i j t = (twoRows t i j (a.set c (upCell v w)) (b.set c (pickCell v w)), .ok ()) := by
  have tv : v.HasType ty := (h.rowsOK a (List.mem_of_getElem? hi)).2 c ty v hty hv
  have tw : w.HasType ty := (h.rowsOK b (List.mem_of_getElem? hj)).2 c ty w hty hw
  have li := (List.getElem?_eq_some_iff.1 hi).1
  have lj := (List.getElem?_eq_some_iff.1 hj).1
  have h1 : t.colTypeByColIndex (c : Int) = .ok ty := colTypeByColIndex_ok.2 ⟨by omega, by simpa using hty⟩
  have s1 := setVal_cell h hty lj tv
  have s2 := setVal_cell h hty li tw
  have gv := getVal_cell h hi hv
  have gw := getVal_cell h hj hw
  have hints : ∀ (k : IntKind) (nz : Cell τ → Option Bool), (∀ z, nz (.int k z) = some (decide (z ≠ 0))) → (∃ z, v = .int k z) → (∃ z, w = .int k z) →
      mergeSoft (fun t r => t.getValByColIndex c r) (fun t r x => t.setValByColIndex c r x) nz i j t =
        (twoRows t i j (a.set c (upCell v w)) (b.set c (pickCell v w)), .ok ()) := by
    intro k nz hnz hv' hw'
    obtain ⟨z, rfl⟩ := hv'
    obtain ⟨z', rfl⟩ := hw'
    exact mergeSoft_eq hij hi hj hv hw gv gw s1 s2 (by rw [hnz, int_weight.2]) (by rw [hnz, int_weight.2]) int_weight.1 int_weight.1
  cases ty <;> simp only [ColType.Mergeable, Bool.false_eq_true] at hm <;> simp only [mergeCells, h1]
  case float32 => exact mergeFloat_eq h hij hi hj hv hw s1 s2 (float_weight (.inl rfl) tv) (float_weight (.inl rfl) tw)
  case float64 => exact mergeFloat_eq h hij hi hj hv hw s1 s2 (float_weight (.inr rfl) tv) (float_weight (.inr rfl) tw)
  case string =>
    have g1 := getTypedByColIndex_cell hty hi hv tv
    have g2 := getTypedByColIndex_cell hty hj hw tw
    have nb : ∀ x : Cell τ, x.HasType .string → x ≠ .bytes none := by intro x hx e; subst e; exact hx
    have e1 := setTypedByColIndex_cell h hty lj tv (nb v tv)
    have e2 := setTypedByColIndex_cell h hty li tw (nb w tw)
    have nz : ∀ x : Cell τ, x.HasType .string → stringNonZero x = some (decide (x.weight = 2)) ∧ x.weight ≠ 0 := by
      intro x hx
      cases x <;> simp only [Cell.HasType] at hx
      rename_i s
      by_cases hs : s = [] <;> simp [stringNonZero, Cell.weight, hs]
    exact mergeSoft_eq hij hi hj hv hw g1 g2 e1 e2 (nz v tv).1 (nz w tw).1 (nz v tv).2 (nz w tw).2
  case bool =>
    have g1 := getTypedByColIndex_cell hty hi hv tv
    have g2 := getTypedByColIndex_cell hty hj hw tw
    have nb : ∀ x : Cell τ, x.HasType .bool → x ≠ .bytes none := by intro x hx e; subst e; exact hx
    have e1 := setTypedByColIndex_cell h hty lj tv (nb v tv)
    have e2 := setTypedByColIndex_cell h hty li tw (nb w tw)
    have nz : ∀ x : Cell τ, x.HasType .bool → boolNonZero x = some (decide (x.weight = 2)) ∧ x.weight ≠ 0 := by
      intro x hx
      cases x <;> simp only [Cell.HasType] at hx
      rename_i s
      cases s <;> simp [boolNonZero, Cell.weight]
    exact mergeSoft_eq hij hi hj hv hw g1 g2 e1 e2 (nz v tv).1 (nz w tw).1 (nz v tv).2 (nz w tw).2
  all_goals
    cases v with
    | int kv zv =>
      cases w with
      | int kw zw =>
        cases kv <;> simp only [Cell.HasType] at tv
        cases kw <;> simp only [Cell.HasType] at tw
        exact hints _ _ (fun _ => rfl) ⟨_, rfl⟩ ⟨_, rfl⟩
      | _ => simp only [Cell.HasType] at tw
    | _ => simp only [Cell.HasType] at tv

end

theorem pickRow_zero (a b : List (Cell τ)) : pickRow 0 a b = b := by
  apply List.ext_getElem?; intro k; exact pickRow_ge 0 a b k (Nat.zero_le _)

theorem upRow_length (C : Nat) (a b : List (Cell τ)) : (upRow C a b).length = a.length := by simp [upRow]

theorem upRow_ge (C : Nat) (a b : List (Cell τ)) (c : Nat) (hc : C ≤ c) : (upRow C a b)[c]? = a[c]? := by
  rw [upRow, List.getElem?_mapIdx]
  cases a[c]? <;> simp [Nat.not_lt.2 hc]

theorem upRow_zero (a b : List (Cell τ)) : upRow 0 a b = a := by
  apply List.ext_getElem?; intro k; exact upRow_ge 0 a b k (Nat.zero_le _)

theorem pickRow_succ {c : Nat} {a b : List (Cell τ)} {v w : Cell τ} (hv : a[c]? = some v) (hw : b[c]? = some w) :
    pickRow (c + 1) a b = (pickRow c a b).set c (pickCell v w) := by
  apply List.ext_getElem?; intro k
  have hlt := (List.getElem?_eq_some_iff.1 hw).1
  rw [List.getElem?_set]
  by_cases e : c = k
  · subst e
    rw [if_pos rfl, pickRow_length, if_pos hlt, pickRow_get _ a b c hv hw, if_pos (by omega)]
  · rw [if_neg e]
    simp only [pickRow, List.getElem?_mapIdx]
    have : (k < c + 1) ↔ k < c := by omega
    simp only [this]

theorem upRow_succ {c : Nat} {a b : List (Cell τ)} {v w : Cell τ} (hv : a[c]? = some v) (hw : b[c]? = some w) :
    upRow (c + 1) a b = (upRow c a b).set c (upCell v w) := by
  apply List.ext_getElem?; intro k
  have hlt := (List.getElem?_eq_some_iff.1 hv).1
  rw [List.getElem?_set]
  by_cases e : c = k
  · subst e
    rw [if_pos rfl, upRow_length, if_pos hlt, upRow, List.getElem?_mapIdx, hv]
    simp [hw]
  · rw [if_neg e]
    simp only [upRow, List.getElem?_mapIdx]
    have : (k < c + 1) ↔ k < c := by omega
    simp only [this]

theorem rowOK_pick {types : List ColType} {a b : List (Cell τ)} (ha : RowOK types a) (hb : RowOK types b) (C : Nat) :
    RowOK types (pickRow C a b) ∧ RowOK types (upRow C a b) := by
  constructor
  · refine ⟨by rw [pickRow_length]; exact hb.1, fun i ty x hty hx => ?_⟩
    rw [pickRow, List.getElem?_mapIdx, Option.map_eq_some_iff] at hx
    obtain ⟨w, hw, rfl⟩ := hx
    split
    · cases hv : a[i]? with
      | none => exact hb.2 i ty w hty hw
      | some v => rcases pickCell_or v w with e | e <;> simp only [e]
                  · exact ha.2 i ty v hty hv
                  · exact hb.2 i ty w hty hw
    · exact hb.2 i ty w hty hw
  · refine ⟨by rw [upRow_length]; exact ha.1, fun i ty x hty hx => ?_⟩
    rw [upRow, List.getElem?_mapIdx, Option.map_eq_some_iff] at hx
    obtain ⟨v, hv, rfl⟩ := hx
    split
    · cases hw : b[i]? with
      | none => exact ha.2 i ty v hty hv
      | some w => rcases upCell_or v w with e | e <;> simp only [e]
                  · exact ha.2 i ty v hty hv
                  · exact hb.2 i ty w hty hw
    · exact ha.2 i ty v hty hv

theorem WF.twoRows {t : Table τ} (h : WF t) {i j : Nat} {x y : List (Cell τ)} (hi : i < t.rows.length)
    (hx : RowOK t.colTypes x) (hy : RowOK t.colTypes y) : WF (twoRows t i j x y) := by
  refine h.withRows _ ?_ ?_
  · intro row hrow
    rcases List.mem_or_eq_of_mem_set hrow with hrow | rfl
    · rcases List.mem_or_eq_of_mem_set hrow with hrow | rfl
      · exact h.rowsOK row hrow
      · exact hx
    · exact hy
  · intro hnil
    have := (h.nilEmpty hnil).2
    rw [this] at hi; exact absurd hi (by simp)

/-- All columns of one pair of rows. -/
theorem mergeCols_eq {t : Table τ} (h : WF t) {i j : Nat} (hij : i ≠ j) {a b : List (Cell τ)} (hi : t.rows[i]? = some a) (hj : t.rows[j]? = some b)
    (C : Nat) (hC : ∀ c, c < C → ∃ ty, t.colTypes[c]? = some ty ∧ ty.Mergeable = true) :
    forEach (fun (ci : Nat) (t : Table τ) => mergeCells ci i j t) (List.range C) t = (twoRows t i j (upRow C a b) (pickRow C a b), .ok ()) := by
  have li := (List.getElem?_eq_some_iff.1 hi).1
  have lj := (List.getElem?_eq_some_iff.1 hj).1
  have oka := h.rowsOK a (List.mem_of_getElem? hi)
  have okb := h.rowsOK b (List.mem_of_getElem? hj)
  obtain ⟨s', h1, h2⟩ := forEach_range_ok (f := fun (ci : Nat) (t : Table τ) => mergeCells ci i j t)
    (fun c s => s = twoRows t i j (upRow c a b) (pickRow c a b)) C (by
      intro c hc s hs
      subst hs
      obtain ⟨ty, hty, hm⟩ := hC c hc
      have hclt := (List.getElem?_eq_some_iff.1 hty).1
      obtain ⟨v, ev⟩ : ∃ v, a[c]? = some v := ⟨_, List.getElem?_eq_getElem (by rw [oka.1]; exact hclt)⟩
      obtain ⟨w, ew⟩ : ∃ w, b[c]? = some w := ⟨_, List.getElem?_eq_getElem (by rw [okb.1]; exact hclt)⟩
      have hok := rowOK_pick oka okb c
      have hwf := h.twoRows (j := j) li hok.2 hok.1
      have ri : (twoRows t i j (upRow c a b) (pickRow c a b)).rows[i]? = some (upRow c a b) := by
        simp only [twoRows]; rw [List.getElem?_set_ne (Ne.symm hij), List.getElem?_set_self li]
      have rj : (twoRows t i j (upRow c a b) (pickRow c a b)).rows[j]? = some (pickRow c a b) := by
        simp only [twoRows]; rw [List.getElem?_set_self (by simpa using lj)]
      refine ⟨_, mergeCells_eq (ty := ty) hwf hty hm hij ri rj (v := v) (w := w) (by rw [upRow_ge _ _ _ _ (Nat.le_refl _)]; exact ev)
        (by rw [pickRow_ge _ _ _ _ (Nat.le_refl _)]; exact ew), ?_⟩
      rw [← upRow_succ ev ew, ← pickRow_succ ev ew]
      simp only [twoRows]
      congr 1
      rw [List.set_comm _ _ (Ne.symm hij), List.set_set, List.set_set]) t (by rw [upRow_zero, pickRow_zero, twoRows_self hi hj])
  rw [h1, h2]

end Verif
