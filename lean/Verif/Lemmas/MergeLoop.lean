import Verif.Lemmas.Equals
import Verif.Lemmas.MergeCells

/-! The loop of `Merge` over neighbouring rows. -/

namespace Verif

variable {τ : Type}

open Table

theorem keyCells_of {t : Table τ} {r : Nat} {ks : List SortKey} {as : List (Cell τ)} (hl : as.length = ks.length)
    (h : ∀ (i : Nat) (k : SortKey) (a : Cell τ), ks[i]? = some k → as[i]? = some a → At t k.colName r a) : KeyCells t r ks as := by
  induction ks generalizing as with
  | nil => cases as <;> simp_all [KeyCells]
  | cons k ks ih =>
    cases as with
    | nil => simp at hl
    | cons a as =>
      exact ⟨h 0 k a rfl rfl, ih (by simpa using hl) fun i k' a' e1 e2 => h (i + 1) k' a' (by simpa using e1) (by simpa using e2)⟩

theorem typed_of {ks : List SortKey} {as : List (Cell τ)} (hl : as.length = ks.length)
    (h : ∀ (i : Nat) (k : SortKey) (a : Cell τ), ks[i]? = some k → as[i]? = some a → k.colType.Sortable = true ∧ a.HasType k.colType) : Typed ks as := by
  induction ks generalizing as with
  | nil => cases as <;> simp_all [Typed]
  | cons k ks ih =>
    cases as with
    | nil => simp at hl
    | cons a as =>
      have h0 := h 0 k a rfl rfl
      exact ⟨h0.1, h0.2, ih (by simpa using hl) fun i k' a' e1 e2 => h (i + 1) k' a' (by simpa using e1) (by simpa using e2)⟩

/-- The first columns of the table are its key columns. -/
structure KeysFirst (t : Table τ) : Prop where
  names : ∀ (i : Nat) (k : SortKey), t.sortKeys[i]? = some k → t.colNames[i]? = some k.colName ∧ t.colTypes[i]? = some k.colType
  fits : t.sortKeys.length ≤ t.colNames.length

theorem KeysFirst.keyCells {t : Table τ} (h : WF t) (hk : KeysFirst t) {r : Nat} {row : List (Cell τ)} (hr : t.rows[r]? = some row) :
    KeyCells t r t.sortKeys (row.take t.sortKeys.length) ∧ Typed t.sortKeys (row.take t.sortKeys.length) := by
  have hlen : (row.take t.sortKeys.length).length = t.sortKeys.length := by
    rw [List.length_take, h.rowLen hr]; have := hk.fits; omega
  have hget : ∀ (i : Nat) (k : SortKey) (a : Cell τ), t.sortKeys[i]? = some k → (row.take t.sortKeys.length)[i]? = some a → row[i]? = some a := by
    intro i k a hk' ha
    rwa [List.getElem?_take, if_pos (List.getElem?_eq_some_iff.1 hk').1] at ha
  refine ⟨keyCells_of hlen fun i k a e1 e2 => ⟨i, row, (hk.names i k e1).1, hr, hget i k a e1 e2⟩, typed_of hlen fun i k a e1 e2 => ?_⟩
  exact ⟨(h.keysOK k (List.mem_of_getElem? e1)).1, (h.rowsOK row (List.mem_of_getElem? hr)).2 i _ a (hk.names i k e1).2 (hget i k a e1 e2)⟩

theorem KeysFirst.compareRows (lower : GoStr → GoStr) {t : Table τ} (h : WF t) (hk : KeysFirst t) (hne : t.sortKeys ≠ []) {i j : Nat}
    {a b : List (Cell τ)} (hi : t.rows[i]? = some a) (hj : t.rows[j]? = some b) :
    t.compareRows lower (i : Int) (j : Int) =
      .ok (lexCmp lower (ascending t.sortKeys) (a.take t.sortKeys.length) (b.take t.sortKeys.length)) := by
  have li := (List.getElem?_eq_some_iff.1 hi).1
  have lj := (List.getElem?_eq_some_iff.1 hj).1
  have hl : t.sortKeys.length ≠ 0 := fun e => hne (List.length_eq_zero_iff.1 e)
  obtain ⟨ka, ta⟩ := hk.keyCells h hi
  obtain ⟨kb, tb⟩ := hk.keyCells h hj
  unfold Table.compareRows rowCount
  rw [if_neg (by omega), if_neg (by omega), if_neg hl]
  exact compareRowsLoop_eq lower h ka kb ta tb

/-- A table in the middle of `Merge`: the keys first, `C` columns, then the two temporary columns. -/
structure Framed (C : Nat) (t : Table τ) : Prop where
  wf : WF t
  first : KeysFirst t
  someKey : t.sortKeys ≠ []
  keys : t.sortKeys.length ≤ C
  cols : t.colNames.length = C + 2
  delName : t.colNames[C + 1]? = some deleteColName
  delType : t.colTypes[C + 1]? = some .bool

/-- The `C` columns can be merged. -/
structure Merging (C : Nat) (t : Table τ) : Prop extends Framed C t where
  mergeable : ∀ c, c < C → ∃ ty, t.colTypes[c]? = some ty ∧ ty.Mergeable = true

theorem Merging.withRows {C : Nat} {t : Table τ} (h : Merging C t) {rows : List (List (Cell τ))} (hr : WF { t with rows := rows }) :
    Merging C { t with rows := rows } :=
  ⟨⟨hr, ⟨h.first.names, h.first.fits⟩, h.someKey, h.keys, h.cols, h.delName, h.delType⟩, h.mergeable⟩

theorem setTyped_cell {t : Table τ} (h : WF t) {c i : Nat} {n : GoStr} {v : Cell τ} {ty : ColType} (hn : t.colNames[c]? = some n)
    (hty : t.colTypes[c]? = some ty) (hi : i < t.rows.length) (ht : v.HasType ty) (hb : v ≠ .bytes none) :
    t.setTyped ty n (i : Int) v = (putCell t c i v, .ok ()) := by
  rcases setTyped_cases h ty n i v ht with ⟨ci, ri, ty', e1, e2, _, _, _, _, e⟩ | ⟨hno, _⟩
  · have : ri = i := by omega
    have := h.map_unique e1 hn
    subst ci; subst ri; exact e
  · exact absurd ⟨c, i, ty, hn, rfl, hty, hi, ht, hb⟩ hno

/-- One step of the loop. -/
theorem mergeRowStep_eq (lower : GoStr → GoStr) {C : Nat} {t : Table τ} (h : Merging C t) {i : Nat} {a b : List (Cell τ)}
    (hi : t.rows[i]? = some a) (hj : t.rows[i + 1]? = some b) :
    mergeRowStep lower i t =
      if lexCmp lower (ascending t.sortKeys) (a.take t.sortKeys.length) (b.take t.sortKeys.length) = 0 then
        (twoRows t i (i + 1) ((upRow C a b).set (C + 1) (.bool true)) (pickRow C a b), .ok ())
      else (t, .ok ()) := by
  have li := (List.getElem?_eq_some_iff.1 hi).1
  have oka := h.wf.rowsOK a (List.mem_of_getElem? hi)
  have okb := h.wf.rowsOK b (List.mem_of_getElem? hj)
  have e1 : ((i : Int) + 1) = ((i + 1 : Nat) : Int) := by simp
  unfold mergeRowStep
  rw [e1, h.first.compareRows lower h.wf h.someKey hi hj]
  simp only
  split
  · have hcc : t.colCount - 2 = C := by unfold colCount; rw [h.cols]; rfl
    have hmc := mergeCols_eq h.wf (by omega : i ≠ i + 1) hi hj C h.mergeable
    rw [hcc, hmc]
    simp only
    have hok := rowOK_pick oka okb C
    have hwf := h.wf.twoRows (j := i + 1) li hok.2 hok.1
    have ri : (twoRows t i (i + 1) (upRow C a b) (pickRow C a b)).rows[i]? = some (upRow C a b) := by
      simp only [twoRows]; rw [List.getElem?_set_ne (by omega), List.getElem?_set_self li]
    rw [setTyped_cell hwf (c := C + 1) (v := .bool true) h.delName h.delType (by simpa [twoRows] using li) trivial (by simp)]
    congr 1
    unfold putCell
    simp only [twoRows]
    congr 1
    apply List.ext_getElem?
    intro k
    rw [List.getElem?_modify]
    by_cases ek : i = k
    · subst ek
      simp only [twoRows] at ri
      rw [ri, List.getElem?_set_ne (by omega), List.getElem?_set_self li]; simp
    · simp only [ek, if_false, id_map']
      by_cases ek2 : i + 1 = k
      · subst ek2
        rw [List.getElem?_set_self (by simpa using (List.getElem?_eq_some_iff.1 hj).1), List.getElem?_set_self (by simpa using (List.getElem?_eq_some_iff.1 hj).1)]
      · rw [List.getElem?_set_ne ek2, List.getElem?_set_ne ek, List.getElem?_set_ne ek2, List.getElem?_set_ne ek]
  · rfl

/-- The row is not marked for deletion. -/
def unmarked (C : Nat) (row : List (Cell τ)) : Bool :=
  match row[C + 1]? with
  | some (.bool false) => true
  | _ => false

/-- Neighbouring rows are compared without regard to the direction of the keys. -/
def sameKeys (lower : GoStr → GoStr) (ks : List SortKey) (a b : List (Cell τ)) : Bool :=
  decide (lexCmp lower (ascending ks) (a.take ks.length) (b.take ks.length) = 0)

theorem mergeLoop (lower : GoStr → GoStr) {C : Nat} (rest : List (List (Cell τ))) :
    ∀ (pre : List (List (Cell τ))) (a : List (Cell τ)) (t : Table τ), Merging C t → t.rows = pre ++ a :: rest →
      (∀ x ∈ a :: rest, unmarked C x = true) →
      ∃ out, forEach (mergeRowStep lower) (List.range' pre.length rest.length) t = ({ t with rows := pre ++ out }, .ok ()) ∧
        WF { t with rows := pre ++ out } ∧ out.length = rest.length + 1 ∧
        out.filter (unmarked C) = survivors C (sameKeys lower t.sortKeys) a rest := by
  induction rest with
  | nil =>
    intro pre a t h hr hu
    refine ⟨[a], ?_, ?_, rfl, ?_⟩
    · simp only [List.length_nil, List.range'_zero, forEach]
      rw [← hr]
    · rw [← hr]; exact h.wf
    · simp [survivors, hu a (by simp)]
  | cons b rest ih =>
    intro pre a t h hr hu
    have hi : t.rows[pre.length]? = some a := by rw [hr]; simp
    have hj : t.rows[pre.length + 1]? = some b := by
      rw [hr, List.getElem?_append_right (by omega)]; simp
    have hstep := mergeRowStep_eq lower h hi hj
    rw [List.length_cons, List.range'_succ]
    by_cases he : lexCmp lower (ascending t.sortKeys) (a.take t.sortKeys.length) (b.take t.sortKeys.length) = 0
    · rw [if_pos he] at hstep
      rw [forEach_cons_ok hstep]
      have hrows : (twoRows t pre.length (pre.length + 1) ((upRow C a b).set (C + 1) (.bool true)) (pickRow C a b)).rows =
          (pre ++ [(upRow C a b).set (C + 1) (.bool true)]) ++ pickRow C a b :: rest := by
        simp only [twoRows, hr]
        rw [List.set_append_right _ _ (by omega), List.set_append_right _ _ (by omega)]
        simp
      have oka := h.wf.rowsOK a (List.mem_of_getElem? hi)
      have okb := h.wf.rowsOK b (List.mem_of_getElem? hj)
      have hok := rowOK_pick oka okb C
      have hwf := h.wf.twoRows (j := pre.length + 1) (List.getElem?_eq_some_iff.1 hi).1
        (hok.2.set (i := C + 1) (v := .bool true) h.delType trivial) hok.1
      have hmark : unmarked C ((upRow C a b).set (C + 1) (.bool true : Cell τ)) = false := by
        have hl : C + 1 < (upRow C a b).length := by
          rw [upRow_length, h.wf.rowLen hi, h.cols]; omega
        simp only [unmarked]
        rw [List.getElem?_set_self hl]
      have hpick : unmarked C (pickRow C a b) = true := by
        have := hu b (by simp)
        simp only [unmarked] at this ⊢
        rw [pickRow_ge _ _ _ _ (by omega)]; exact this
      obtain ⟨out, h1, h2, h3, h4⟩ := ih (pre ++ [(upRow C a b).set (C + 1) (.bool true)]) (pickRow C a b) _ (h.withRows hwf) hrows (by
        intro x hx
        rcases List.mem_cons.1 hx with rfl | hx
        · exact hpick
        · exact hu x (by simp [hx]))
      rw [List.length_append, List.length_singleton] at h1
      refine ⟨(upRow C a b).set (C + 1) (.bool true) :: out, ?_, ?_, by rw [List.length_cons, h3], ?_⟩
      · refine (show _ = _ from h1).trans ?_; simp [twoRows]
      · simpa [twoRows] using h2
      · rw [List.filter_cons, hmark]
        simp only [survivors, sameKeys, he, decide_true, if_true]
        exact h4
    · rw [if_neg he] at hstep
      rw [forEach_cons_ok hstep]
      obtain ⟨out, h1, h2, h3, h4⟩ := ih (pre ++ [a]) b t h (by rw [hr]; simp) (by intro x hx; exact hu x (by simp [List.mem_cons.1 hx]))
      rw [List.length_append, List.length_singleton] at h1
      refine ⟨a :: out, ?_, ?_, by rw [List.length_cons, h3], ?_⟩
      · rw [h1]; simp
      · simpa using h2
      · rw [List.filter_cons, hu a (by simp)]
        simp only [survivors, sameKeys, he, decide_false, Bool.false_eq_true, if_false]
        rw [if_pos trivial]
        exact congrArg (a :: ·) h4

/-- The whole loop: the unmarked rows afterwards. -/
theorem mergeRows_eq (lower : GoStr → GoStr) {C : Nat} {t : Table τ} (h : Merging C t) {a : List (Cell τ)} {rest : List (List (Cell τ))}
    (hr : t.rows = a :: rest) (hu : ∀ x ∈ t.rows, unmarked C x = true) :
    ∃ out, t.mergeRows lower = ({ t with rows := out }, .ok ()) ∧ Merging C { t with rows := out } ∧ out.length = t.rows.length ∧
      out.filter (unmarked C) = survivors C (sameKeys lower t.sortKeys) a rest := by
  obtain ⟨out, h1, h2, h3, h4⟩ := mergeLoop lower rest [] a t h hr (by rw [← hr]; exact hu)
  refine ⟨out, ?_, h.withRows h2, by rw [hr]; exact h3, h4⟩
  have : t.rowCount - 1 = rest.length := by unfold rowCount; rw [hr]; rfl
  rw [Table.mergeRows, this, List.range_eq_range']
  exact h1

/-- Merging two rows fails if some column cannot be merged. -/
theorem mergeCols_bad {t : Table τ} (h : WF t) {i j : Nat} (hij : i ≠ j) {a b : List (Cell τ)} (hi : t.rows[i]? = some a) (hj : t.rows[j]? = some b)
    (C : Nat) {c0 : Nat} {ty0 : ColType} (hc0 : c0 < C) (hty0 : t.colTypes[c0]? = some ty0) (hbad : ty0.Mergeable = false)
    (hbefore : ∀ c, c < c0 → ∃ ty, t.colTypes[c]? = some ty ∧ ty.Mergeable = true) :
    ∃ t' e, forEach (fun (ci : Nat) (t : Table τ) => mergeCells ci i j t) (List.range C) t = (t', .err e) := by
  obtain ⟨tail, hsplit⟩ : ∃ tail, List.range C = List.range c0 ++ c0 :: tail := by
    obtain ⟨k, rfl⟩ : ∃ k, C = c0 + (k + 1) := ⟨C - c0 - 1, by omega⟩
    exact ⟨(List.map Nat.succ (List.range k)).map (c0 + ·), by rw [List.range_add, List.range_succ_eq_map]; simp⟩
  rw [hsplit, forEach_append, mergeCols_eq h hij hi hj c0 hbefore]
  simp only [forEach]
  have hct : (twoRows t i j (upRow c0 a b) (pickRow c0 a b)).colTypeByColIndex (c0 : Int) = .ok ty0 := colTypeByColIndex_nat hty0
  have hm : mergeCells c0 i j (twoRows t i j (upRow c0 a b) (pickRow c0 a b)) = (twoRows t i j (upRow c0 a b) (pickRow c0 a b), .err .badColType) := by
    simp only [mergeCells, hct]
    cases ty0 <;> first | rfl | cases hbad
  rw [hm]
  exact ⟨_, _, rfl⟩

theorem exists_first {p : Nat → Prop} : ∀ (n : Nat), p n → ∃ k, p k ∧ k ≤ n ∧ ∀ j, j < k → ¬ p j := by
  intro n
  induction n using Nat.strongRecOn with
  | ind n ih =>
    intro hn
    by_cases hex : ∃ j, j < n ∧ p j
    · obtain ⟨j, hj, pj⟩ := hex
      obtain ⟨k, h1, h2, h3⟩ := ih j hj pj
      exact ⟨k, h1, by omega, h3⟩
    · exact ⟨n, hn, Nat.le_refl n, fun j hj pj => hex ⟨j, hj, pj⟩⟩

/-- If some column cannot be merged, the loop fails or finds no equal keys. -/
theorem mergeRows_bad (lower : GoStr → GoStr) {C : Nat} {t : Table τ} (h : Framed C t) {c : Nat} {ty : ColType} (hc : c < C)
    (hty : t.colTypes[c]? = some ty) (hbad : ty.Mergeable = false) :
    (∃ t' e, t.mergeRows lower = (t', .err e)) ∨ t.mergeRows lower = (t, .ok ()) := by
  obtain ⟨c0, ⟨ty0, hty0, hbad0⟩, hle, hfirst⟩ := exists_first (p := fun c => ∃ ty, t.colTypes[c]? = some ty ∧ ty.Mergeable = false) c ⟨ty, hty, hbad⟩
  have hbefore : ∀ c, c < c0 → ∃ ty, t.colTypes[c]? = some ty ∧ ty.Mergeable = true := by
    intro c' hc'
    have hlt : c' < t.colTypes.length := by have := (List.getElem?_eq_some_iff.1 hty0).1; omega
    refine ⟨t.colTypes[c'], List.getElem?_eq_getElem hlt, ?_⟩
    cases hq : (t.colTypes[c']).Mergeable with
    | true => rfl
    | false => exact absurd ⟨_, List.getElem?_eq_getElem hlt, hq⟩ (hfirst c' hc')
  have hstep : ∀ i, i + 1 < t.rows.length → (∃ t' e, mergeRowStep lower i t = (t', .err e)) ∨ mergeRowStep lower i t = (t, .ok ()) := by
    intro i hi
    obtain ⟨a, ha⟩ : ∃ a, t.rows[i]? = some a := ⟨_, List.getElem?_eq_getElem (by omega)⟩
    obtain ⟨b, hb⟩ : ∃ b, t.rows[i + 1]? = some b := ⟨_, List.getElem?_eq_getElem hi⟩
    have e1 : ((i : Int) + 1) = ((i + 1 : Nat) : Int) := by simp
    unfold mergeRowStep
    rw [e1, h.first.compareRows lower h.wf h.someKey ha hb]
    simp only
    split
    · have hcc : t.colCount - 2 = C := by unfold colCount; rw [h.cols]; rfl
      obtain ⟨t', e, he⟩ := mergeCols_bad h.wf (by omega : i ≠ i + 1) ha hb C (c0 := c0) (by omega) hty0 hbad0 hbefore
      rw [hcc, he]
      exact .inl ⟨_, _, rfl⟩
    · exact .inr rfl
  have hloop : ∀ l : List Nat, (∀ i ∈ l, i + 1 < t.rows.length) →
      (∃ t' e, forEach (mergeRowStep lower) l t = (t', .err e)) ∨ forEach (mergeRowStep lower) l t = (t, .ok ()) := by
    intro l
    induction l with
    | nil => intro _; exact .inr rfl
    | cons i l ih =>
      intro hl
      rcases hstep i (hl i (by simp)) with ⟨t', e, he⟩ | he
      · left; exact ⟨t', e, by simp [forEach, he]⟩
      · rw [forEach_cons_ok he]; exact ih fun j hj => hl j (by simp [hj])
  refine hloop _ fun i hi => ?_
  have := List.mem_range.1 hi
  unfold rowCount at this
  omega

end Verif
