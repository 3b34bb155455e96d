import Verif.Model.Equals
import Verif.Spec.Content
import Verif.Lemmas.Search

/-! # Table comparison -/

namespace Verif
open Table

variable {τ : Type}

theorem checkEach_ok {ι : Type} {f : ι → Out Unit} {l : List ι} : checkEach f l = .ok () ↔ ∀ i ∈ l, f i = .ok () := by
  induction l with
  | nil => simp [checkEach]
  | cons a l ih =>
    simp only [checkEach, List.mem_cons, forall_eq_or_imp, ← ih]
    cases f a <;> simp [Out.bind]

theorem checkEach_noPanic {ι : Type} {f : ι → Out Unit} {l : List ι} (h : ∀ i ∈ l, f i ≠ .panic) : checkEach f l ≠ .panic := by
  induction l with
  | nil => simp [checkEach]
  | cons a l ih =>
    have h1 := h a (by simp)
    have h2 := ih (fun i hi => h i (by simp [hi]))
    simp only [checkEach]
    cases e : f a with
    | ok u => simpa [Out.bind] using h2
    | err e => simp [Out.bind]
    | panic => exact absurd e h1

theorem sliceLoop_eq : ∀ {a b : List UInt8}, a.length = b.length → (sliceLoop a b = true ↔ a = b)
  | [], [], _ => by simp [sliceLoop]
  | [], _ :: _, h => by simp at h
  | _ :: _, [], h => by simp at h
  | a :: as, b :: bs, h => by
    simp only [sliceLoop]
    by_cases e : a = b
    · simp only [ne_eq, e, not_true, if_false, sliceLoop_eq (Nat.succ.inj h), List.cons.injEq, true_and]
    · simp [e]

theorem goEq_iff {R : τ → τ → Prop} {ty : ColType} {x y : Cell τ} (hx : x.HasType ty) (hy : y.HasType ty)
    (h1 : ¬ (ty = .byteSlice ∨ ty = .uint8Slice)) (h2 : ty ≠ .table) (h3 : ty ≠ .time) :
    goEq x y = true ↔ CellEq R x y := by
  cases ty <;> simp_all <;> cases x <;> simp_all [Cell.HasType] <;> cases y <;> simp_all [Cell.HasType, goEq, CellEq]

theorem colType_err_or {t : Table τ} (h : WF t) (n : GoStr) :
    (∃ ty, HasColT t n ty ∧ t.colType n = .ok ty) ∨ (n ∉ t.colNames ∧ ∃ e, t.colType n = .err e) := by
  by_cases hn : n ∈ t.colNames
  · obtain ⟨i, hi⟩ := List.getElem?_of_mem hn
    obtain ⟨ty, hty⟩ := h.type_of_name hi
    exact .inl ⟨ty, ⟨i, hi, hty⟩, colType_of h ⟨i, hi, hty⟩⟩
  · refine .inr ⟨hn, .noCol, ?_⟩
    simp only [colType, h.get?_none.2 hn]

theorem colTypeByColIndex_nat {t : Table τ} {i : Nat} {ty : ColType} (h : t.colTypes[i]? = some ty) :
    t.colTypeByColIndex (i : Int) = .ok ty :=
  colTypeByColIndex_ok.2 (by simpa using h)

theorem equalsColType_ok {t1 t2 : Table τ} (h2 : WF t2) {i : Nat} {n : GoStr} {ty : ColType}
    (hi : t1.colNames[i]? = some n) (hty : t1.colTypes[i]? = some ty) :
    (equalsColType t1 t2 i = .ok () ↔ HasColT t2 n ty) ∧ equalsColType t1 t2 i ≠ .panic := by
  simp only [equalsColType, colName_nat hi, colTypeByColIndex_nat hty, Out.bind]
  rcases colType_err_or h2 n with ⟨ty2, hc, e⟩ | ⟨hn, er, e⟩
  · rw [e]
    by_cases hne : ty = ty2
    · subst hne; simp [hc]
    · simp only [ne_eq, hne, not_false_eq_true, if_true, reduceCtorEq, false_iff]
      exact ⟨fun hc' => hne (hc'.unique h2 hc), by simp⟩
  · rw [e]
    simp only [reduceCtorEq, false_iff]
    refine ⟨?_, by simp⟩
    rintro ⟨j, hj, _⟩; exact hn (List.mem_of_getElem? hj)

theorem getTypedByColIndex_table {t : Table τ} {i r : Nat} {row : List (Cell τ)} {a : τ} (hty : t.colTypes[i]? = some .table)
    (hr : t.rows[r]? = some row) (hc : row[i]? = some (.tbl (some a))) :
    getTypedByColIndex .table t i r = .ok (.tbl (some a)) := by
  have h1 : t.hasRow (r : Int) = .ok () := hasRow_ok.2 ⟨by omega, by
    have := (List.getElem?_eq_some_iff.1 hr).1; omega⟩
  have h2 : t.getCell? (i : Int) (r : Int) = some (.tbl (some a)) := getCell?_some.2 ⟨row, by omega, by omega, by simpa using hr, by simpa using hc⟩
  simp [getTypedByColIndex, colTypeByColIndex_nat hty, Out.bind, h1, h2, typeAssert, Cell.dynType]

/-- One cell, given that the second table has the column too, and, if it is a `*Table` column, at the same place. -/
theorem equalsCell_ok {nested : τ → τ → Out Unit} {R : τ → τ → Prop} {t1 t2 : Table τ} (h1 : WF t1) (h2 : WF t2)
    {i r : Nat} {n : GoStr} {ty : ColType}
    (hR : ∀ a b, At t1 n r (.tbl (some a)) → At t2 n r (.tbl (some b)) → (nested a b = .ok () ↔ R a b)) (hi : t1.colNames[i]? = some n)
    (hty : t1.colTypes[i]? = some ty) (hc2 : HasColT t2 n ty) (hplace : ty = .table → t2.colNames[i]? = some n)
    (hr1 : r < t1.rows.length) (hr2 : r < t2.rows.length) :
    (equalsCell nested t1 t2 i n ty r = .ok () ↔ ∀ x y, At t1 n r x → At t2 n r y → CellEq R x y) ∧
    ((∀ a b, At t1 n r (.tbl (some a)) → At t2 n r (.tbl (some b)) → nested a b ≠ .panic) →
      equalsCell nested t1 t2 i n ty r ≠ .panic) := by
  have hlt := (List.getElem?_eq_some_iff.1 hi).1
  obtain ⟨row1, x, a1, a2, a3⟩ := getValByColIndex_nat h1 (c := i) (r := r) hlt hr1
  obtain ⟨j, hj1, hj2⟩ := hc2
  have hx : At t1 n r x := ⟨i, row1, hi, a1, a2⟩
  obtain ⟨y, hy⟩ := At_exists h2 (List.mem_of_getElem? hj1) hr2
  have b3 : t2.getVal n (r : Int) = .ok y := (getVal_ok_iff h2).2 ⟨r, rfl, hy⟩
  have hxt : x.HasType ty := (h1.rowsOK row1 (List.mem_of_getElem? a1)).2 i _ _ hty a2
  have hyt : y.HasType ty := by
    obtain ⟨k, row2, c1, c2, c3⟩ := hy
    have := h2.map_unique hj1 c1; subst this
    exact (h2.rowsOK row2 (List.mem_of_getElem? c2)).2 j _ _ hj2 c3
  have hall : (∀ x' y', At t1 n r x' → At t2 n r y' → CellEq R x' y') ↔ CellEq R x y := by
    constructor
    · exact fun hh => hh x y hx hy
    · intro hh x' y' hx' hy'
      rw [At_unique h1 hx' hx, At_unique h2 hy' hy]; exact hh
  rw [hall]
  simp only [equalsCell, a3, b3, Out.bind]
  by_cases c1 : ty = .byteSlice ∨ ty = .uint8Slice
  · rw [if_pos c1]
    have hxb : ∃ s, x = .bytes s := by
      rcases c1 with rfl | rfl <;> cases x <;> simp [Cell.HasType] at hxt ⊢
    have hyb : ∃ s, y = .bytes s := by
      rcases c1 with rfl | rfl <;> cases y <;> simp [Cell.HasType] at hyt ⊢
    obtain ⟨s1, rfl⟩ := hxb
    obtain ⟨s2, rfl⟩ := hyb
    simp only [CellEq]
    by_cases hl : (s1.getD []).length = (s2.getD []).length
    · rw [if_neg (by simp [hl])]
      cases he : sliceLoop (s1.getD []) (s2.getD [])
      · rw [if_pos rfl]
        have : ¬ (s1.getD [] = s2.getD []) := by rw [← sliceLoop_eq hl, he]; simp
        simp [this]
      · rw [if_neg (by simp)]
        simp [(sliceLoop_eq hl).1 he]
    · rw [if_pos hl]
      have : ¬ (s1.getD [] = s2.getD []) := fun e => hl (by rw [e])
      simp [this]
  · rw [if_neg c1]
    by_cases c2 : ty = .table
    · rw [if_pos c2]
      subst c2
      have hxb : ∃ s, x = .tbl (some s) := by
        cases x with
        | tbl o => cases o <;> simp [Cell.HasType] at hxt ⊢
        | _ => simp [Cell.HasType] at hxt
      have hyb : ∃ s, y = .tbl (some s) := by
        cases y with
        | tbl o => cases o <;> simp [Cell.HasType] at hyt ⊢
        | _ => simp [Cell.HasType] at hyt
      obtain ⟨a, rfl⟩ := hxb
      obtain ⟨b, rfl⟩ := hyb
      have hji : j = i := h2.map_unique hj1 (hplace rfl)
      subst hji
      have hR' := hR a b hx hy
      have hy' := hy
      obtain ⟨k, row2, c1, c2, c3⟩ := hy
      have := h2.map_unique hj1 c1; subst this
      rw [getTypedByColIndex_table hty a1 a2, getTypedByColIndex_table hj2 c2 c3]
      simp only [CellEq, ← hR']
      cases e : nested a b with
      | ok u => simp
      | err e => simp
      | panic => simp only [reduceCtorEq, ne_eq, not_true, imp_false, true_and]; intro hp; exact hp a b hx hy' e
    · rw [if_neg c2]
      by_cases c3 : ty = .time
      · rw [if_pos c3]
        subst c3
        have hxb : ∃ s, x = .time s := by cases x <;> simp [Cell.HasType] at hxt ⊢
        have hyb : ∃ s, y = .time s := by cases y <;> simp [Cell.HasType] at hyt ⊢
        obtain ⟨a, rfl⟩ := hxb
        obtain ⟨b, rfl⟩ := hyb
        simp only [CellEq]
        by_cases e : a.sec = b.sec ∧ a.nsec = b.nsec
        · simp [e]
        · simp only [e]; simp
      · rw [if_neg c3, ← goEq_iff (R := R) hxt hyt c1 c2 c3]
        cases goEq x y <;> simp

/-- `*Table` columns of both tables stand at the same place. -/
def TableColsAligned (t1 t2 : Table τ) : Prop := 
  ∀ (n : GoStr) (i : Nat), HasColT t1 n .table → t1.colNames[i]? = some n → t2.colNames[i]? = some n

theorem nodup_subset_length {α : Type} [BEq α] [LawfulBEq α] {l1 l2 : List α} (h1 : l1.Nodup) (hs : ∀ x ∈ l1, x ∈ l2) : l1.length ≤ l2.length := by
  induction l1 generalizing l2 with
  | nil => simp
  | cons a l ih =>
    simp only [List.nodup_cons] at h1
    have hm : a ∈ l2 := hs a (by simp)
    have := ih h1.2 (l2 := l2.erase a) (by
      intro x hx
      refine (List.mem_erase_of_ne ?_).2 (hs x (by simp [hx]))
      rintro rfl; exact h1.1 hx)
    rw [List.length_erase_of_mem hm] at this
    have := List.length_pos_of_mem hm
    simp only [List.length_cons]; omega

theorem nodup_subset_eq {l1 l2 : List GoStr} (h1 : l1.Nodup) (hs : ∀ x ∈ l1, x ∈ l2) (hl : l2.length ≤ l1.length) :
    ∀ x ∈ l2, x ∈ l1 := by
  intro x hx
  by_cases hm : x ∈ l1
  · exact hm
  · exfalso
    have := nodup_subset_length (l1 := x :: l1) (l2 := l2) (by simp [hm, h1]) (by
      intro y hy
      rcases List.mem_cons.1 hy with rfl | hy
      · exact hx
      · exact hs y hy)
    simp at this; omega

theorem HasColT.mem {t : Table τ} {n : GoStr} {ty : ColType} (h : HasColT t n ty) : n ∈ t.colNames := by
  obtain ⟨i, hi, _⟩ := h; exact List.mem_of_getElem? hi

theorem WF.hasColT_of_mem {t : Table τ} (h : WF t) {n : GoStr} (hn : n ∈ t.colNames) : ∃ ty, HasColT t n ty := by
  obtain ⟨i, hi⟩ := List.getElem?_of_mem hn
  obtain ⟨ty, hty⟩ := h.type_of_name hi
  exact ⟨ty, i, hi, hty⟩

/-- Same number of columns and every column of the first is in the second: the same columns. -/
theorem cols_iff {t1 t2 : Table τ} (h1 : WF t1) (h2 : WF t2) :
    (t1.colNames.length = t2.colNames.length ∧ ∀ n ty, HasColT t1 n ty → HasColT t2 n ty) ↔ ∀ n ty, HasColT t1 n ty ↔ HasColT t2 n ty := by
  constructor
  · rintro ⟨hl, hs⟩ n ty
    refine ⟨hs n ty, fun h => ?_⟩
    have hsub : ∀ x ∈ t1.colNames, x ∈ t2.colNames := by
      intro x hx
      obtain ⟨ty, h⟩ := h1.hasColT_of_mem hx
      exact (hs x ty h).mem
    have hm := nodup_subset_eq h1.namesNodup hsub (by omega) n h.mem
    obtain ⟨ty', h'⟩ := h1.hasColT_of_mem hm
    rw [(hs n ty' h').unique h2 h] at h'
    exact h'
  · intro h
    refine ⟨?_, fun n ty => (h n ty).1⟩
    have a := nodup_subset_length h1.namesNodup (l2 := t2.colNames) (fun x hx => by
      obtain ⟨ty, h'⟩ := h1.hasColT_of_mem hx
      exact ((h x ty).1 h').mem)
    have b := nodup_subset_length h2.namesNodup (l2 := t1.colNames) (fun x hx => by
      obtain ⟨ty, h'⟩ := h2.hasColT_of_mem hx
      exact ((h x ty).2 h').mem)
    omega

theorem equals_spec {nested : τ → τ → Out Unit} {R : τ → τ → Prop} {t1 t2 : Table τ} (h1 : WF t1) (h2 : WF t2)
    (hR : ∀ n r a b, At t1 n r (.tbl (some a)) → At t2 n r (.tbl (some b)) → (nested a b = .ok () ↔ R a b))
    (hplace : TableColsAligned t1 t2) :
    (equals nested t1 t2 = .ok () ↔ SameContent R t1 t2) ∧
    ((∀ n r a b, At t1 n r (.tbl (some a)) → At t2 n r (.tbl (some b)) → nested a b ≠ .panic) → equals nested t1 t2 ≠ .panic) := by
  have hrc1 : t1.rowCount = t1.rows.length := rfl
  have hrc2 : t2.rowCount = t2.rows.length := rfl
  have hcc1 : t1.colCount = t1.colNames.length := rfl
  have hcc2 : t2.colCount = t2.colNames.length := rfl
  simp only [equals]
  by_cases c1 : t1.isNilTable = true ∧ t2.isNilTable = false
  · rw [if_pos c1]
    simp only [SameContent, c1.1, c1.2, reduceCtorEq, false_iff]
    simp
  rw [if_neg c1]
  by_cases c2 : t1.isNilTable = false ∧ t2.isNilTable = true
  · rw [if_pos c2]
    simp only [SameContent, c2.1, c2.2, reduceCtorEq, false_iff]
    simp
  rw [if_neg c2]
  have hnil : t1.isNilTable = t2.isNilTable := by
    cases e1 : t1.isNilTable <;> cases e2 : t2.isNilTable <;> simp_all
  by_cases c3 : t1.name = t2.name
  case neg =>
    rw [if_pos c3]
    simp [SameContent, c3]
  rw [if_neg (by simp [c3])]
  by_cases c4 : t1.rowCount = t2.rowCount
  case neg =>
    rw [if_pos c4]
    have : ¬ (t1.rows.length = t2.rows.length) := by omega
    simp [SameContent, this]
  rw [if_neg (by simp [c4])]
  have hrows : t1.rows.length = t2.rows.length := by omega
  by_cases c5 : t1.colCount = t2.colCount
  case neg =>
    rw [if_pos c5]
    have : ¬ (t1.colNames.length = t2.colNames.length) := by omega
    refine ⟨?_, by simp⟩
    simp only [reduceCtorEq, false_iff]
    rintro ⟨_, _, _, hc, _⟩
    exact this ((cols_iff h1 h2).2 hc).1
  rw [if_neg (by simp [c5])]
  have htypes : checkEach (equalsColType t1 t2) (List.range t1.colCount) = .ok () ↔ ∀ n ty, HasColT t1 n ty → HasColT t2 n ty := by
    rw [checkEach_ok]
    constructor
    · rintro h n ty ⟨i, hi, hty⟩
      exact (equalsColType_ok h2 hi hty).1.1 (h i (by simpa [hcc1] using (List.getElem?_eq_some_iff.1 hi).1))
    · intro h i hi
      have hlt : i < t1.colNames.length := by simpa [hcc1] using hi
      have hn : t1.colNames[i]? = some t1.colNames[i] := List.getElem?_eq_getElem hlt
      obtain ⟨ty, hty⟩ := h1.type_of_name hn
      exact (equalsColType_ok h2 hn hty).1.2 (h _ _ ⟨i, hn, hty⟩)
  have htypesP : checkEach (equalsColType t1 t2) (List.range t1.colCount) ≠ .panic := by
    apply checkEach_noPanic
    intro i hi
    have hlt : i < t1.colNames.length := by simpa [hcc1] using hi
    have hn : t1.colNames[i]? = some t1.colNames[i] := List.getElem?_eq_getElem hlt
    obtain ⟨ty, hty⟩ := h1.type_of_name hn
    exact (equalsColType_ok h2 hn hty).2
  cases et : checkEach (equalsColType t1 t2) (List.range t1.colCount) with
  | panic => exact absurd et htypesP
  | err e =>
    refine ⟨?_, by simp [Out.bind]⟩
    simp only [Out.bind, reduceCtorEq, false_iff]
    rintro ⟨_, _, _, hc, _⟩
    have := htypes.2 (fun n ty => (hc n ty).1)
    rw [et] at this; cases this
  | ok u =>
    have hsub := htypes.1 et
    have hcols := (cols_iff h1 h2).1 ⟨by omega, hsub⟩
    simp only [Out.bind]
    have hcell : ∀ i n ty, t1.colNames[i]? = some n → t1.colTypes[i]? = some ty → ∀ r, r < t1.rows.length → _ :=
      fun i n ty hi hty r hr => equalsCell_ok (nested := nested) h1 h2 (hR n r) hi hty (hsub n ty ⟨i, hi, hty⟩)
        (fun e => hplace n i (e ▸ ⟨i, hi, hty⟩) hi) hr (by omega : r < t2.rows.length)
    constructor
    · rw [checkEach_ok]
      constructor
      · intro h
        refine ⟨hnil, c3, hrows, hcols, ?_⟩
        intro n r x y hx hy
        obtain ⟨i, row, hi, hr, _⟩ := id hx
        obtain ⟨ty, hty⟩ := h1.type_of_name hi
        have hrlt := (List.getElem?_eq_some_iff.1 hr).1
        have e := h i (by simpa [hcc1] using (List.getElem?_eq_some_iff.1 hi).1)
        simp only [equalsCol, colName_nat hi, colTypeByColIndex_nat hty, Out.bind, checkEach_ok] at e
        exact (hcell i n ty hi hty r hrlt).1.1 (e r (by simpa [hrc1] using hrlt)) x y hx hy
      · rintro ⟨_, _, _, _, h⟩ i hi
        have hlt : i < t1.colNames.length := by simpa [hcc1] using hi
        have hn : t1.colNames[i]? = some t1.colNames[i] := List.getElem?_eq_getElem hlt
        obtain ⟨ty, hty⟩ := h1.type_of_name hn
        simp only [equalsCol, colName_nat hn, colTypeByColIndex_nat hty, Out.bind, checkEach_ok]
        intro r hr
        exact (hcell i _ ty hn hty r (by simpa [hrc1] using hr)).1.2 (h _ r)
    · intro hp
      apply checkEach_noPanic
      intro i hi
      have hlt : i < t1.colNames.length := by simpa [hcc1] using hi
      have hn : t1.colNames[i]? = some t1.colNames[i] := List.getElem?_eq_getElem hlt
      obtain ⟨ty, hty⟩ := h1.type_of_name hn
      simp only [equalsCol, colName_nat hn, colTypeByColIndex_nat hty, Out.bind]
      apply checkEach_noPanic
      intro r hr
      exact (hcell i _ ty hn hty r (by simpa [hrc1] using hr)).2 (hp _ _)

end Verif
