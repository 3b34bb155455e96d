import Verif.Props.C03

/-!
# C12 ReorderCols applies exactly the requested permutation
-/

namespace Verif
open Table

variable {τ : Type}

/-- Column `k` of `t'` is column `order[k]` of `t`, in name, type and every cell; read by name nothing changed. -/
def Reordered (t t' : Table τ) (order : List Int) : Prop :=
  t'.colNames.length = t.colNames.length ∧ t'.rows.length = t.rows.length ∧
  (∀ (k i : Nat), order[k]? = some (i : Int) →
    t'.colNames[k]? = t.colNames[i]? ∧ t'.colTypes[k]? = t.colTypes[i]? ∧
    ∀ r : Int, t'.getValByColIndex k r = t.getValByColIndex i r) ∧
  (∀ n r, t'.getVal n r = t.getVal n r) ∧
  t'.name = t.name ∧ t'.sortKeys = t.sortKeys ∧ t'.isStructShape = t.isStructShape ∧ t'.isNilTable = t.isNilTable

/-- The same table: all contents equal, and the name lookup gives the same answers. -/
def SameTable (t t' : Table τ) : Prop :=
  t'.name = t.name ∧ t'.colNames = t.colNames ∧ t'.colTypes = t.colTypes ∧ t'.rows = t.rows ∧ t'.sortKeys = t.sortKeys ∧
  t'.isStructShape = t.isStructShape ∧ t'.isNilTable = t.isNilTable ∧ t'.parent = t.parent ∧
  ∀ n, t'.colIndex n = t.colIndex n

/-- On well-formed tables the lookup is determined by the names. -/
theorem colIndex_congr {t t' : Table τ} (h : WF t) (h' : WF t') (e : t'.colNames = t.colNames) (n : GoStr) :
    t'.colIndex n = t.colIndex n := by
  rcases h.colIndex_cases n with ⟨i, hi, hix⟩ | ⟨hi, hix⟩
  · rw [hix, h'.colIndex_ok.2 (by rw [e]; exact hi)]
  · rcases h'.colIndex_cases n with ⟨j, hj, _⟩ | ⟨_, hjx⟩
    · rw [e] at hj; exact absurd (List.mem_of_getElem? hj) hi
    · rw [hix, hjx]

/-- Tables with the same cells by name, the same column names up to order, and the same nil-ness answer `GetVal` alike. -/
theorem getVal_eq_of_At {t t' : Table τ} (h : WF t) (h' : WF t') (hm : ∀ n, n ∈ t'.colNames ↔ n ∈ t.colNames)
    (hl : t'.rows.length = t.rows.length) (hnil : t'.isNilTable = t.isNilTable)
    (hat : ∀ n r c, At t' n r c ↔ At t n r c) (n : GoStr) (r : Int) : t'.getVal n r = t.getVal n r := by
  by_cases hin : n ∈ t.colNames ∧ 0 ≤ r ∧ r < t.rows.length
  · obtain ⟨x, hx⟩ := getVal_total h hin.1 hin.2
    rw [hx]
    obtain ⟨r1, rfl, ha⟩ := (getVal_ok_iff h).1 hx
    exact (getVal_ok_iff h').2 ⟨r1, rfl, (hat _ _ _).2 ha⟩
  · rw [getVal_outside h hin, getVal_outside h' (by rw [hm, hl]; exact hin), hnil]
    simp only [hm]

/-- `GetValByColIndex` through the name of the column. -/
theorem getValByColIndex_eq_getVal {t : Table τ} (h : WF t) {c : Nat} {n : GoStr} (hc : t.colNames[c]? = some n) (r : Int) :
    t.getValByColIndex (c : Int) r = t.getVal n r := by
  simp only [getVal, h.colIndex_ok.2 hc, Out.bind, getValByColIndex]
  split <;> rfl

theorem reordered {t : Table τ} (h : WF t) {σ : List Nat} (hσ : σ.Perm (List.range t.colNames.length)) :
    Reordered t (reorderTable t σ) (σ.map Int.ofNat) := by
  have hlt := perm_range_lt hσ
  have hw := h.reorderTable hσ
  have hmem : ∀ n, n ∈ (reorderTable t σ).colNames ↔ n ∈ t.colNames := fun n => (pick_perm hσ).mem_iff
  have hget : ∀ n r, (reorderTable t σ).getVal n r = t.getVal n r :=
    getVal_eq_of_At h hw hmem (by simp [reorderTable]) rfl (fun n r c => At_reorderTable h hσ n r c)
  refine ⟨by simp only [reorderTable]; rw [pick_length _ _ hlt, perm_range_length hσ], by simp [reorderTable], ?_, hget,
    rfl, rfl, rfl, rfl⟩
  intro k i hk
  have hk' : σ[k]? = some i := by
    rw [List.getElem?_map] at hk
    rcases hs : σ[k]? with _ | j
    · simp [hs] at hk
    · simp [hs] at hk; simp; omega
  have hil := hlt i (List.mem_of_getElem? hk')
  have hn : (reorderTable t σ).colNames[k]? = t.colNames[i]? := by
    simp only [reorderTable]; rw [pick_getElem? _ _ hlt, hk']; rfl
  have hi : t.colNames[i]? = some t.colNames[i] := List.getElem?_eq_getElem hil
  refine ⟨hn, ?_, ?_⟩
  · simp only [reorderTable]; rw [pick_getElem? _ _ (by rw [h.typesLen]; exact hlt), hk']; rfl
  · intro r
    rw [getValByColIndex_eq_getVal hw (hn.trans hi), getValByColIndex_eq_getVal h hi, hget]

/-- **C12** for `ReorderColsByColIndex`. -/
theorem C12_byColIndex (t : Table τ) (h : WF t) (order : List Int) :
    (order.Perm ((List.range t.colNames.length).map Int.ofNat) →
      (t.reorderColsByColIndex order).2 = .ok () ∧ Reordered t (t.reorderColsByColIndex order).1 order ∧
      WF (t.reorderColsByColIndex order).1) ∧
    (¬ order.Perm ((List.range t.colNames.length).map Int.ofNat) →
      (∃ e, (t.reorderColsByColIndex order).2 = .err e) ∧ (t.reorderColsByColIndex order).1 = t) := by
  rcases reorderColsByColIndex_cases h order with ⟨σ, rfl, hσ, e⟩ | ⟨hno, e⟩
  · refine ⟨fun _ => ?_, fun hno => absurd (hσ.map _) hno⟩
    rw [e]; exact ⟨rfl, reordered h hσ, h.reorderTable hσ⟩
  · refine ⟨fun h' => absurd h' hno, fun _ => ?_⟩
    rw [e]; exact ⟨⟨_, rfl⟩, rfl⟩

/-- **C12** for `ReorderCols`: the new column names are exactly the argument. -/
theorem C12_byName (t : Table τ) (h : WF t) (ns : List GoStr) :
    (ns.Perm t.colNames →
      (t.reorderCols ns).2 = .ok () ∧ (t.reorderCols ns).1.colNames = ns ∧ WF (t.reorderCols ns).1 ∧
      (∃ order, order.Perm ((List.range t.colNames.length).map Int.ofNat) ∧ Reordered t (t.reorderCols ns).1 order)) ∧
    (¬ ns.Perm t.colNames → (∃ e, (t.reorderCols ns).2 = .err e) ∧ (t.reorderCols ns).1 = t) := by
  rcases reorderCols_cases h ns with ⟨σ, hp, hσ, hpick, e⟩ | ⟨hno, e, he⟩
  · refine ⟨fun _ => ?_, fun hno => absurd hp hno⟩
    rw [e]; exact ⟨rfl, hpick, h.reorderTable hσ, _, hσ.map _, reordered h hσ⟩
  · refine ⟨fun h' => absurd h' hno, fun _ => ?_⟩
    rw [he]; exact ⟨⟨_, rfl⟩, rfl⟩

theorem pick_inverse {α : Type} {σ inv : List Nat} {l : List α} (hσ : σ.Perm (List.range l.length))
    (hinv : inv.Perm (List.range l.length)) (hi : ∀ k i : Nat, σ[k]? = some i → inv[i]? = some k) :
    pick inv (pick σ l) = l := by
  have hlt := perm_range_lt hσ
  have hl : (pick σ l).length = l.length := by rw [pick_length _ _ hlt, perm_range_length hσ]
  have hlt2 : ∀ i ∈ inv, i < (pick σ l).length := by rw [hl]; exact perm_range_lt hinv
  apply List.ext_getElem?
  intro j
  rw [pick_getElem? _ _ hlt2]
  by_cases hj : j < l.length
  · have : j ∈ σ := hσ.mem_iff.2 (by simpa using hj)
    obtain ⟨k, hk⟩ := List.getElem?_of_mem this
    rw [hi k j hk]
    simp only [Option.bind_some]
    rw [pick_getElem? _ _ hlt, hk]; rfl
  · rw [List.getElem?_eq_none (l := inv) (by rw [perm_range_length hinv]; omega), List.getElem?_eq_none (by omega)]; rfl

/-- **C12**: reordering by the inverse permutation restores the table. -/
theorem C12_inverse (t : Table τ) (h : WF t) (σ inv : List Nat)
    (hσ : σ.Perm (List.range t.colNames.length)) (hinv : inv.Perm (List.range t.colNames.length))
    (hi : ∀ k i : Nat, σ[k]? = some i → inv[i]? = some k) :
    ∃ t1 t2, t.reorderColsByColIndex (σ.map Int.ofNat) = (t1, .ok ()) ∧
      t1.reorderColsByColIndex (inv.map Int.ofNat) = (t2, .ok ()) ∧ SameTable t t2 := by
  have hw := h.reorderTable hσ
  have hlt := perm_range_lt hσ
  have hlen : (reorderTable t σ).colNames.length = t.colNames.length := by
    simp only [reorderTable]; rw [pick_length _ _ hlt, perm_range_length hσ]
  have hinv' : inv.Perm (List.range (reorderTable t σ).colNames.length) := by rw [hlen]; exact hinv
  have hw2 := hw.reorderTable hinv'
  refine ⟨_, _, reorderColsByColIndex_eq h hσ, reorderColsByColIndex_eq hw hinv', rfl, ?_, ?_, ?_, rfl, rfl, rfl, rfl, ?_⟩
  · exact pick_inverse hσ hinv hi
  · exact pick_inverse (by rw [h.typesLen]; exact hσ) (by rw [h.typesLen]; exact hinv) hi
  · simp only [reorderTable, List.map_map]
    conv => rhs; rw [← List.map_id t.rows]
    apply List.map_congr_left
    intro row hrow
    have hl : row.length = t.colNames.length := by rw [(h.rowsOK row hrow).1, h.typesLen]
    exact pick_inverse (by rw [hl]; exact hσ) (by rw [hl]; exact hinv) hi
  · exact colIndex_congr h hw2 (pick_inverse hσ hinv hi)

/-! ### `NewTableReorderCols` -/

theorem pick_append {α : Type} (σ σ' : List Nat) (l : List α) : pick (σ ++ σ') l = pick σ l ++ pick σ' l := by
  simp [pick]

theorem copyColCells_eq {src dst : Table τ} {c k : Nat} (hlen : dst.rows.length = src.rows.length)
    (hs : ∀ row ∈ src.rows, c < row.length) (hd : ∀ row ∈ dst.rows, k < row.length) :
    ∃ dst', copyColCells src (k : Int) (c : Int) dst = (dst', .ok ()) ∧ SameHeader dst dst' ∧
      dst'.rows.length = dst.rows.length ∧
      ∀ (r : Nat) (row row' : List (Cell τ)), src.rows[r]? = some row → dst.rows[r]? = some row' →
        ∃ v, row[c]? = some v ∧ dst'.rows[r]? = some (row'.set k v) := by
  simp only [copyColCells, rowCount]
  obtain ⟨s', h1, h2⟩ := forEach_range_ok
    (f := fun (ri : Nat) (dst : Table τ) =>
      match src.getCell? (c : Int) ri with
      | none => (dst, .panic)
      | some v =>
        match dst.setCell? (k : Int) ri v with
        | none => (dst, .panic)
        | some dst' => (dst', .ok ()))
    (fun j s => SameHeader dst s ∧ s.rows.length = dst.rows.length ∧
      ∀ (r : Nat) (row row' : List (Cell τ)), src.rows[r]? = some row → dst.rows[r]? = some row' →
        (r < j → ∃ v, row[c]? = some v ∧ s.rows[r]? = some (row'.set k v)) ∧ (j ≤ r → s.rows[r]? = some row'))
    src.rows.length (s := dst)
    (by
      rintro j hj s ⟨hh, hl, hr⟩
      have hrow : src.rows[j]? = some src.rows[j] := List.getElem?_eq_getElem hj
      have hcl := hs _ (List.getElem_mem hj)
      have hv : src.rows[j][c]? = some src.rows[j][c] := List.getElem?_eq_getElem hcl
      have hg : src.getCell? (c : Int) (j : Int) = some src.rows[j][c] :=
        getCell?_some.2 ⟨src.rows[j], by omega, by omega, by simpa using hrow, by simpa using hv⟩
      have hdj : j < dst.rows.length := by omega
      have hrow' : dst.rows[j]? = some dst.rows[j] := List.getElem?_eq_getElem hdj
      have hs' := (hr j _ _ hrow hrow').2 (Nat.le_refl _)
      have hset := setCell?_nat (c := k) (v := src.rows[j][c]) hs' (hd _ (List.getElem_mem hdj))
      refine ⟨{ s with rows := s.rows.set j (dst.rows[j].set k src.rows[j][c]) }, ?_, ?_, ?_, ?_⟩
      · simp only [hg, hset]
      · simpa [SameHeader] using hh
      · simpa using hl
      · intro r row row' ha hb
        constructor
        · intro hlt
          by_cases e : r = j
          · subst e
            rw [hrow] at ha; cases ha
            rw [hrow'] at hb; cases hb
            exact ⟨_, hv, by simp only; rw [List.getElem?_set_self (by omega)]⟩
          · obtain ⟨v, hv1, hv2⟩ := (hr r row row' ha hb).1 (by omega)
            exact ⟨v, hv1, by simp only; rw [List.getElem?_set_ne (Ne.symm e)]; exact hv2⟩
        · intro hge
          simp only
          rw [List.getElem?_set_ne (by omega)]
          exact (hr r row row' ha hb).2 (by omega))
    (by
      refine ⟨by simp [SameHeader], rfl, ?_⟩
      intro r row row' ha hb
      exact ⟨fun h => absurd h (Nat.not_lt_zero _), fun _ => hb⟩)
  refine ⟨s', h1, h2.1, h2.2.1, ?_⟩
  intro r row row' ha hb
  exact (h2.2.2 r row row' ha hb).1 (List.getElem?_eq_some_iff.1 ha).1

/-- State of the new table after the columns `σ` have been copied. -/
def PartCopied (t : Table τ) (σ : List Nat) (s : Table τ) : Prop :=
  WF s ∧ s.name = t.name ∧ s.colNames = pick σ t.colNames ∧ s.colTypes = pick σ t.colTypes ∧
  s.rows = t.rows.map (pick σ) ∧ s.sortKeys = [] ∧ s.isStructShape = false ∧ s.isNilTable = false ∧ s.parent = none

theorem reorderStep_ok (nt : Nat → Nat → τ) {t : Table τ} (h : WF t) {σ : List Nat} {c : Nat} {s : Table τ}
    (hσ : ∀ i ∈ σ, i < t.colNames.length) (hc : c < t.colNames.length) (hnew : c ∉ σ) (hs : PartCopied t σ s) :
    ∃ s', reorderStep nt t (σ.length, (c : Int)) s = (s', .ok ()) ∧ PartCopied t (σ ++ [c]) s' := by
  obtain ⟨hw, hname, hnames, htypes, hrows, hkeys, hshape, hnil, hpar⟩ := hs
  have hcn : t.colNames[c]? = some t.colNames[c] := List.getElem?_eq_getElem hc
  have hct : t.colTypes[c]? = some (t.colTypes[c]'(by rw [h.typesLen]; exact hc)) := List.getElem?_eq_getElem _
  have hslen : s.colNames.length = σ.length := by rw [hnames]; exact pick_length _ _ hσ
  have e1 := colName_nat hcn
  have e2 : t.colTypeByColIndex (c : Int) = .ok (t.colTypes[c]'(by rw [h.typesLen]; exact hc)) :=
    colTypeByColIndex_ok.2 ⟨by omega, by simpa using hct⟩
  have hnot : t.colNames[c] ∉ s.colNames := by
    rw [hnames]; intro hm
    obtain ⟨k, hk⟩ := List.getElem?_of_mem hm
    rw [pick_getElem? _ _ hσ] at hk
    rcases hsk : σ[k]? with _ | i
    · simp [hsk] at hk
    · simp only [hsk, Option.bind_some] at hk
      have := h.map_unique hcn hk
      subst this
      exact hnew (List.mem_of_getElem? hsk)
  have e3 := appendCol_eq nt hnil hw.typesLen (fun row hr => by rw [(hw.rowsOK row hr).1, hw.typesLen])
    (h.namesValid _ (List.getElem_mem hc)) (hw.get?_none.2 hnot) (ty := t.colTypes[c]'(by rw [h.typesLen]; exact hc))
  have hwa := hw.appendCol nt t.colNames[c] (t.colTypes[c]'(by rw [h.typesLen]; exact hc)).name
  rw [e3] at hwa
  simp only at hwa
  obtain ⟨s', h1, hh, hl, hr⟩ := copyColCells_eq (src := t) (c := c) (k := σ.length) (dst := _)
    (show (addZeroCol nt s.colNames.length (t.colTypes[c]'(by rw [h.typesLen]; exact hc)) s.rows).length = t.rows.length by
      simp [addZeroCol, hrows])
    (fun row hrow => by rw [(h.rowsOK row hrow).1, h.typesLen]; exact hc)
    (fun row hrow => by
      have := (hwa.rowsOK row hrow).1
      rw [this, hwa.typesLen]; simp [hslen])
  refine ⟨s', ?_, ?_⟩
  · simp only [reorderStep, e1, e2]
    rw [e3]; exact h1
  · obtain ⟨g1, g2, g3, g4, g5, g6, g7, g8⟩ := hh
    simp only at g1 g2 g3 g4 g5 g6 g7 g8
    have hrows' : s'.rows = t.rows.map (pick (σ ++ [c])) := by
      apply List.ext_getElem?
      intro r
      by_cases hlt : r < t.rows.length
      · have ha : t.rows[r]? = some t.rows[r] := List.getElem?_eq_getElem hlt
        have hb : (addZeroCol nt s.colNames.length (t.colTypes[c]'(by rw [h.typesLen]; exact hc)) s.rows)[r]? =
            some (pick σ t.rows[r] ++ [zeroCell (nt s.colNames.length r) (t.colTypes[c]'(by rw [h.typesLen]; exact hc))]) := by
          simp [addZeroCol, hrows, ha]
        obtain ⟨v, hv, hx⟩ := hr r _ _ ha hb
        have hpl : (pick σ t.rows[r]).length = σ.length :=
          pick_length _ _ (fun i hi => by rw [h.rowLen ha]; exact hσ i hi)
        rw [hx, List.getElem?_map, ha]
        simp only [Option.map_some, Option.some.injEq]
        rw [pick_append, List.set_append_right _ _ (by omega), hpl]
        simp [pick, hv]
      · rw [List.getElem?_eq_none, List.getElem?_eq_none]
        · simp; omega
        · rw [hl]; simp [addZeroCol, hrows]; omega
    refine ⟨?_, by rw [g1, hname], ?_, ?_, hrows', by rw [g5, hkeys], by rw [g6, hshape], by rw [g7, hnil], by rw [g8, hpar]⟩
    · have := hwa.withRows s'.rows (by
        intro row hrow
        rw [hrows', List.mem_map] at hrow
        obtain ⟨row0, hr0, rfl⟩ := hrow
        have hok := h.rowsOK row0 hr0
        have hl0 : ∀ i ∈ σ ++ [c], i < row0.length := by
          intro i hi
          rw [hok.1, h.typesLen]
          simp only [List.mem_append, List.mem_singleton] at hi
          rcases hi with hi | rfl
          · exact hσ i hi
          · exact hc
        have hl1 : ∀ i ∈ σ ++ [c], i < t.colTypes.length := by rw [← hok.1]; exact hl0
        have htp : s.colTypes ++ [t.colTypes[c]'(by rw [h.typesLen]; exact hc)] = pick (σ ++ [c]) t.colTypes := by
          rw [pick_append, htypes]; simp [pick, hct]
        simp only
        rw [htp]
        refine ⟨by rw [pick_length _ _ hl0, pick_length _ _ hl1], ?_⟩
        intro i ty v hty hv
        rw [pick_getElem? _ _ hl1] at hty
        rw [pick_getElem? _ _ hl0] at hv
        rcases hk : (σ ++ [c])[i]? with _ | j
        · rw [hk] at hty; cases hty
        · rw [hk] at hty hv
          exact hok.2 j ty v hty hv) (by simp only; rw [hnil]; intro hx; cases hx)
      rcases s' with ⟨a1, a2, a3, a4, a5, a6, a7, a8, a9⟩
      simp only at g1 g2 g3 g4 g5 g6 g7 g8
      subst g1; subst g2; subst g3; subst g4; subst g5; subst g6; subst g7; subst g8
      exact this
    · rw [g2, hnames, pick_append]; simp [pick, hcn]
    · rw [g3, htypes, pick_append]; simp [pick, hct]

/-- A new table with `k` rows and no columns. -/
def blankTable (name : GoStr) (k : Nat) : Table τ :=
  { name := name, colNames := [], colTypes := [], colMap := [], rows := List.replicate k [], sortKeys := [],
    isStructShape := false, isNilTable := false, parent := none }

theorem newTableReorderColsByColIndex_ok (nt : Nat → Nat → τ) {t : Table τ} (h : WF t) (hnil : t.isNilTable = false)
    {σ : List Nat} (hσ : σ.Perm (List.range t.colNames.length)) :
    ∃ t', t.newTableReorderColsByColIndex nt (σ.map Int.ofNat) = .ok t' ∧ PartCopied t σ t' := by
  have hlen := perm_range_length hσ
  have hlt := perm_range_lt hσ
  have hnd : σ.Nodup := hσ.nodup_iff.2 List.nodup_range
  have e0 : (newTable t.name : Out (Table τ)) = .ok (blankTable t.name 0) := newTable_eq (h.nameValid hnil)
  have e1 : (blankTable t.name 0).appendRows nt (t.rows.length : Int) = (blankTable t.name t.rows.length, .ok ()) := by
    rw [appendRows_eq nt rfl rfl (by omega)]
    simp only [blankTable, zeroRow, List.mapIdx_nil, Int.toNat_natCast, Prod.mk.injEq, and_true, Table.mk.injEq, true_and]
    rw [List.eq_replicate_iff]
    simp
  obtain ⟨s', h1, h2⟩ := forEach_list_ok (f := reorderStep nt t)
    (fun pre s => PartCopied t (σ.take pre.length) s)
    ((List.range t.colNames.length).zip (σ.map Int.ofNat))
    (by
      intro pre p post hsplit s hs
      have hk : ((List.range t.colNames.length).zip (σ.map Int.ofNat))[pre.length]? = some p := by rw [hsplit]; simp
      rw [List.getElem?_zip_eq_some] at hk
      obtain ⟨hk1, hk2⟩ := hk
      have hkl := (List.getElem?_eq_some_iff.1 hk1).1
      rw [List.length_range] at hkl
      rw [List.getElem?_range hkl] at hk1
      have hkσ : pre.length < σ.length := by omega
      have hσk : σ[pre.length]? = some σ[pre.length] := List.getElem?_eq_getElem hkσ
      rw [List.getElem?_map, hσk] at hk2
      simp only [Option.map_some, Option.some.injEq] at hk1 hk2
      obtain ⟨p1, p2⟩ := p
      simp only at hk1 hk2
      subst hk1; subst hk2
      have := reorderStep_ok nt h (σ := σ.take pre.length) (c := σ[pre.length]) (s := s)
        (fun i hi => hlt i (List.mem_of_mem_take hi)) (hlt _ (List.getElem_mem hkσ))
        (by
          intro hm
          have := List.nodup_iff_pairwise_ne.1 hnd
          obtain ⟨j, hj⟩ := List.getElem?_of_mem hm
          rw [List.getElem?_take] at hj
          split at hj
          · rename_i hjl
            have := nodup_inj hnd hj hσk
            omega
          · cases hj) hs
      obtain ⟨s', h1, h2⟩ := this
      refine ⟨s', ?_, ?_⟩
      · rw [List.length_take, Nat.min_eq_left (by omega)] at h1
        exact h1
      · rw [List.length_append, List.length_singleton, List.take_succ_eq_append_getElem hkσ]
        exact h2)
    (blankTable t.name t.rows.length)
    (by
      simp only [List.length_nil, List.take_zero]
      refine ⟨?_, rfl, rfl, rfl, ?_, rfl, rfl, rfl, rfl⟩
      · refine (WF.newTable e0).withRows _ ?_ (by intro hx; cases hx)
        intro row hrow
        have := (List.mem_replicate.1 hrow).2
        subst this
        exact ⟨rfl, by intro i ty c hty; simp [blankTable] at hty⟩
      · simp only [pick, blankTable]
        apply List.ext_getElem?
        intro r
        simp only [List.filterMap_nil, List.getElem?_replicate, List.getElem?_map]
        split
        · rename_i hr; simp [hr, pick]
        · rename_i hr; rw [List.getElem?_eq_none (by omega)]; rfl)
  refine ⟨s', ?_, ?_⟩
  · simp only [newTableReorderColsByColIndex]
    have h0 : ¬ (σ.map Int.ofNat).length ≠ t.colCount := by simp [colCount, hlen]
    have h3 : ¬ checkConsecutive (sortInts (σ.map Int.ofNat)) 0 = false := by
      rw [Bool.not_eq_false, orderOK_iff]
      simp only [List.length_map, hlen]
      exact hσ.map _
    rw [if_neg h0, if_neg h3, e0]
    simp only [Out.bind, rowCount, e1]
    have h1' : forEach (reorderStep nt t) ((List.range t.colCount).zip (σ.map Int.ofNat)) (blankTable t.name t.rows.length) =
        (s', .ok ()) := h1
    rw [h1']
  · rw [List.length_zip, List.length_map, List.length_range, hlen, Nat.min_self, ← hlen, List.take_length] at h2
    exact h2

/-- **C12** for `NewTableReorderColsByColIndex`: a fresh table with the same name and rows, column `k` being the old column `order[k]`;
it has no sort keys. -/
theorem C12_newTable_byColIndex (nt : Nat → Nat → τ) (t : Table τ) (h : WF t) (hnil : t.isNilTable = false) (order : List Int) :
    (order.Perm ((List.range t.colNames.length).map Int.ofNat) →
      ∃ t', t.newTableReorderColsByColIndex nt order = .ok t' ∧ Reordered { t with sortKeys := [], isStructShape := false } t' order ∧
        WF t') ∧
    (¬ order.Perm ((List.range t.colNames.length).map Int.ofNat) → ∃ e, t.newTableReorderColsByColIndex nt order = .err e) := by
  constructor
  · intro hp
    obtain ⟨σ, rfl, hσ⟩ := order_nat hp
    obtain ⟨t', e, hw, h1, h2, h3, h4, h5, h6, h7, h8⟩ := newTableReorderColsByColIndex_ok nt h hnil hσ
    have hk : WF { t with sortKeys := [], isStructShape := false } := { h with keysOK := by simp }
    have hr := reordered hk hσ
    have hw2 := hk.reorderTable hσ
    have hgi : ∀ c r, t'.getValByColIndex c r =
        (reorderTable { t with sortKeys := [], isStructShape := false } σ).getValByColIndex c r := by
      intro c r
      simp only [getValByColIndex, hasRow, hasColByColIndex, colCount, getCell?, reorderTable, h7, hnil, h4, h2]
    have hgv : ∀ n r, t'.getVal n r = (reorderTable { t with sortKeys := [], isStructShape := false } σ).getVal n r := by
      intro n r
      have hci := colIndex_congr (t := reorderTable { t with sortKeys := [], isStructShape := false } σ) (t' := t') hw2 hw
        (by rw [h2]; rfl) n
      simp only [getVal, hci, hgi]
      have : t'.isNilTable = (reorderTable { t with sortKeys := [], isStructShape := false } σ).isNilTable := by
        rw [h7]; exact hnil.symm
      rw [this]
    refine ⟨t', e, ?_, hw⟩
    obtain ⟨r1, r2, r3, r4, r5, r6, r7, r8⟩ := hr
    refine ⟨by rw [← r1, h2]; rfl, by rw [h4]; simp, ?_, ?_, h1, h5, h6, by rw [h7, ← hnil]⟩
    · intro k i hk'
      obtain ⟨q1, q2, q3⟩ := r3 k i hk'
      refine ⟨by rw [← q1, h2]; rfl, by rw [← q2, h3]; rfl, fun r => ?_⟩
      rw [← q3 r]; exact hgi _ _
    · intro n r; rw [← r4 n r]; exact hgv n r
  · intro hno
    refine ⟨.badOrder, ?_⟩
    simp only [newTableReorderColsByColIndex]
    by_cases hl : order.length = t.colNames.length
    · have h0 : ¬ order.length ≠ t.colCount := by simp [colCount, hl]
      have h3 : checkConsecutive (sortInts order) 0 = false := by
        rw [← Bool.not_eq_true, orderOK_iff, hl]; exact hno
      rw [if_neg h0, if_pos h3]
    · have h0 : order.length ≠ t.colCount := hl
      rw [if_pos h0]

/-- **C12** for `NewTableReorderCols`: as by index, the columns are exactly the argument. -/
theorem C12_newTable_byName (nt : Nat → Nat → τ) (t : Table τ) (h : WF t) (hnil : t.isNilTable = false) (ns : List GoStr) :
    (ns.Perm t.colNames →
      ∃ t' order, t.newTableReorderCols nt ns = .ok t' ∧ t'.colNames = ns ∧
        order.Perm ((List.range t.colNames.length).map Int.ofNat) ∧
        Reordered { t with sortKeys := [], isStructShape := false } t' order ∧ WF t') ∧
    (¬ ns.Perm t.colNames → ∃ e, t.newTableReorderCols nt ns = .err e) := by
  by_cases hl : ns.length = t.colNames.length
  · have h0 : ¬ ns.length ≠ t.colCount := by simp [colCount, hl]
    by_cases hn : ∀ n ∈ ns, n ∈ t.colNames
    · obtain ⟨σ, h1, h2, h3⟩ := namesToIndices_ok h ns hn
      have e0 : t.newTableReorderCols nt ns = t.newTableReorderColsByColIndex nt (σ.map Int.ofNat) := by
        simp only [newTableReorderCols]; rw [if_neg h0, h1]; rfl
      have hiff := positions_perm h.namesNodup h2 h3
      constructor
      · intro hp
        have hσ := hiff.2 hp
        obtain ⟨t', e, hre, hw⟩ := (C12_newTable_byColIndex nt t h hnil (σ.map Int.ofNat)).1 (hσ.map _)
        refine ⟨t', σ.map Int.ofNat, by rw [e0, e], ?_, hσ.map _, hre, hw⟩
        apply List.ext_getElem?
        intro k
        by_cases hk : k < ns.length
        · have hkσ : σ[k]? = some (σ[k]'(by omega)) := List.getElem?_eq_getElem (by omega)
          obtain ⟨n, hn1, hn2⟩ := h3 k _ hkσ
          rw [((hre.2.2.1 k (σ[k]'(by omega)) (by rw [List.getElem?_map, hkσ]; rfl)).1), hn1]
          exact hn2
        · rw [List.getElem?_eq_none (l := t'.colNames) (by rw [hre.1]; simp only; omega), List.getElem?_eq_none (by omega)]
      · intro hno
        rw [e0]
        refine (C12_newTable_byColIndex nt t h hnil _).2 ?_
        intro hp
        apply hno; apply hiff.1
        obtain ⟨σ', e', hσ'⟩ := order_nat hp
        have : σ = σ' := by
          exact (List.map_inj_right (fun a b hab => Int.ofNat.inj hab)).1 e'
        rw [this]; exact hσ'
    · refine ⟨fun hp => absurd (fun n hn' => hp.mem_iff.1 hn') hn, fun _ => ⟨.noCol, ?_⟩⟩
      simp only [newTableReorderCols]; rw [if_neg h0, namesToIndices_err h ns hn]; rfl
  · refine ⟨fun hp => absurd hp.length_eq hl, fun _ => ⟨.badOrder, ?_⟩⟩
    have h0 : ns.length ≠ t.colCount := hl
    simp only [newTableReorderCols]; rw [if_pos h0]

example : ([2, 0, 1] : List Int).Perm ((List.range Ex.t.colNames.length).map Int.ofNat) := by rw [Ex.t_eq]; decide
example : (Ex.t.reorderColsByColIndex [2, 0, 1]).1.getValByColIndex 0 1 = .ok (.f64 0x3ff0000000000000#64) := by decide +kernel
example : (Ex.t.reorderColsByColIndex [2, 0, 2]).2 = .err .badOrder := by decide +kernel
example : (Ex.t.reorderCols [gs! "w", gs! "name", gs! "age"]).1.getVal (gs! "age") 1 = .ok (.int .int (-7)) := by decide +kernel
example : ∀ k i : Nat, ([2, 0, 1] : List Nat)[k]? = some i → ([1, 2, 0] : List Nat)[i]? = some k := by
  intro k i h; rcases k with _ | _ | _ | k <;> simp at h <;> subst h <;> rfl
example : ∃ t', Ex.t.newTableReorderCols (fun _ _ => ()) [gs! "w", gs! "name", gs! "age"] = .ok t' ∧
    t'.getValByColIndex 2 1 = .ok (.int .int (-7)) := by
  refine ⟨_, rfl, ?_⟩; decide +kernel

end Verif
