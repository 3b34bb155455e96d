import Verif.Lemmas.MergeCollect
import Verif.Props.C17

/-! The second part of `Merge`: sort, and merge neighbouring rows. -/

namespace Verif

variable {τ : Type}

open Table

theorem KeysFirst.of {t : Table τ} (h : WF t) (hl : KeysLive t) {rest : List GoStr} (hc : t.colNames = t.sortKeys.map (·.colName) ++ rest) :
    KeysFirst t := by
  refine ⟨fun i k hk => ?_, by rw [hc]; simp⟩
  have hlt := (List.getElem?_eq_some_iff.1 hk).1
  have h1 : t.colNames[i]? = some k.colName := by
    rw [hc, List.getElem?_append_left (by simpa using hlt)]; simp [hk]
  refine ⟨h1, ?_⟩
  obtain ⟨ty, h2⟩ := h.type_of_name h1
  rw [h2, HasColT.unique h ⟨i, h1, h2⟩ (hl k (List.mem_of_getElem? hk))]

/-- Equal keys, in rows that begin with the key cells. -/
def SameK (lower : GoStr → GoStr) (ks : List SortKey) (x y : List (Cell τ)) : Prop := lexCmp lower ks (x.take ks.length) (y.take ks.length) = 0

/-- The table number in a row. -/
def rowNum (C : Nat) (row : List (Cell τ)) : Int :=
  match row[C]? with
  | some (.int _ v) => v
  | _ => 0

theorem lexCmp_snoc (lower : GoStr → GoStr) {ks : List SortKey} {k : SortKey} {as bs : List (Cell τ)} {a b : Cell τ} (ha : as.length = ks.length)
    (hb : bs.length = ks.length) :
    lexCmp lower (ks ++ [k]) (as ++ [a]) (bs ++ [b]) = if lexCmp lower ks as bs ≠ 0 then lexCmp lower ks as bs else cmpKey lower k a b := by
  induction ks generalizing as bs with
  | nil =>
    have : as = [] := List.length_eq_zero_iff.1 ha
    have : bs = [] := List.length_eq_zero_iff.1 hb
    subst as; subst bs
    simp only [List.nil_append, lexCmp_cons]
    by_cases e : cmpKey lower k a b = 0 <;> simp [lexCmp, e]
  | cons k' ks ih =>
    cases as with
    | nil => simp at ha
    | cons a' as =>
      cases bs with
      | nil => simp at hb
      | cons b' bs =>
        simp only [List.cons_append, lexCmp_cons]
        rw [ih (by simpa using ha) (by simpa using hb)]
        by_cases e : cmpKey lower k' a' b' = 0 <;> simp [e]

theorem keyCells_congr {t t' : Table τ} {r : Nat} {ks : List SortKey} {as : List (Cell τ)} (e : ∀ n v, At t n r v ↔ At t' n r v)
    (h : KeyCells t r ks as) : KeyCells t' r ks as := by
  induction ks generalizing as with
  | nil => cases as <;> simp_all [KeyCells]
  | cons k' ks ih =>
    cases as with
    | nil => exact h.elim
    | cons a' as => exact ⟨(e _ _).1 h.1, ih h.2⟩

theorem keyCells_snoc {t : Table τ} {r : Nat} {ks : List SortKey} {as : List (Cell τ)} {k : SortKey} {a : Cell τ} (h : KeyCells t r ks as)
    (ha : At t k.colName r a) : KeyCells t r (ks ++ [k]) (as ++ [a]) := by
  induction ks generalizing as with
  | nil => cases as <;> simp_all [KeyCells]
  | cons k' ks ih =>
    cases as with
    | nil => exact h.elim
    | cons a' as => exact ⟨h.1, ih h.2⟩

theorem typed_snoc {ks : List SortKey} {as : List (Cell τ)} {k : SortKey} {a : Cell τ} (h : Typed ks as) (hs : k.colType.Sortable = true)
    (ha : a.HasType k.colType) : Typed (ks ++ [k]) (as ++ [a]) := by
  induction ks generalizing as with
  | nil => cases as <;> simp_all [Typed]
  | cons k' ks ih =>
    cases as with
    | nil => exact h.elim
    | cons a' as => exact ⟨h.1, h.2.1, ih h.2.2⟩

/-- What stands in `m'` after the second part. -/
structure Combined (lower : GoStr → GoStr) (C : Nat) (m m' : Table τ) : Prop where
  merging : Merging C m'
  keys : m'.sortKeys = m.sortKeys
  name : m'.name = m.name
  notNil : m'.isNilTable = false
  cols : m'.colNames = m.colNames ++ [deleteColName]
  types : m'.colTypes = m.colTypes ++ [.bool]
  len : m'.rows.length = m.rows.length
  good : ∀ s ∈ m'.rows.filter (unmarked C), GoodVals m.sortKeys (s.take m.sortKeys.length)
  best : ∀ s ∈ m'.rows.filter (unmarked C), ∀ c, c < C → ∃ x v, x ∈ m.rows ∧ SameK lower m.sortKeys x s ∧ x[c]? = some v ∧ s[c]? = some v ∧
    ∀ x' w, x' ∈ m.rows → SameK lower m.sortKeys x' s → x'[c]? = some w → w.weight ≤ v.weight ∧ (w.weight = 2 → rowNum C x ≤ rowNum C x')
  unique : (m'.rows.filter (unmarked C)).Pairwise (fun x y => ¬ SameK lower m.sortKeys x y)
  cover : ∀ x ∈ m.rows, ∃ s ∈ m'.rows.filter (unmarked C), SameK lower m.sortKeys x s
  count : (m'.rows.filter (unmarked C)).length ≤ m.rows.length
  full : (m'.rows.filter (unmarked C)).length = m.rows.length ↔ m.rows.Pairwise (fun x y => ¬ SameK lower m.sortKeys x y)

theorem deleteKeyLoop_last (ks : List SortKey) (k : SortKey) (h : ∀ k' ∈ ks, k'.colName ≠ k.colName) :
    deleteKeyLoop k.colName (ks ++ [k]) = some ks := by
  induction ks with
  | nil => simp [deleteKeyLoop]
  | cons k' ks ih =>
    simp only [List.cons_append, deleteKeyLoop]
    rw [if_neg (h k' (by simp)), ih (fun k'' hk => h k'' (by simp [hk]))]
    rfl

/-- What `mergeCombine` needs. -/
structure CombineInput (C : Nat) (m : Table τ) : Prop where
  wf : WF m
  notNil : m.isNilTable = false
  live : KeysLive m
  notNaN : KeysNotNaN m
  someKey : m.sortKeys ≠ []
  rows : m.rows ≠ []
  cols : ∃ rest, m.colNames = m.sortKeys.map (·.colName) ++ rest ++ [tableNumberColName] ∧ C = m.sortKeys.length + rest.length
  number : m.colTypes[C]? = some .int
  free : deleteColName ∉ m.colNames

theorem CombineInput.len {C : Nat} {m : Table τ} (h : CombineInput C m) : m.colNames.length = C + 1 := by
  obtain ⟨rest, h1, h2⟩ := h.cols
  rw [h1, h2]; simp [Nat.add_assoc]

theorem CombineInput.numName {C : Nat} {m : Table τ} (h : CombineInput C m) : m.colNames[C]? = some tableNumberColName := by
  obtain ⟨rest, h1, h2⟩ := h.cols
  rw [h1, h2, List.getElem?_append_right (by simp)]; simp

theorem CombineInput.first {C : Nat} {m : Table τ} (h : CombineInput C m) : KeysFirst m := by
  obtain ⟨rest, h1, h2⟩ := h.cols
  exact KeysFirst.of h.wf h.live (rest := rest ++ [tableNumberColName]) (by rw [h1, List.append_assoc])

theorem CombineInput.keyNe {C : Nat} {m : Table τ} (h : CombineInput C m) {k : SortKey} (hk : k ∈ m.sortKeys) : k.colName ≠ tableNumberColName := by
  obtain ⟨rest, h1, h2⟩ := h.cols
  intro e
  have hnd := h.wf.namesNodup
  rw [h1] at hnd
  exact (List.nodup_append.1 hnd).2.2 k.colName (by simp only [List.mem_append, List.mem_map]; exact .inl ⟨k, hk, rfl⟩) tableNumberColName (by simp) e

theorem CombineInput.good {C : Nat} {m : Table τ} (h : CombineInput C m) {x : List (Cell τ)} (hx : x ∈ m.rows) :
    GoodVals m.sortKeys (x.take m.sortKeys.length) ∧ x.length = C + 1 ∧ ∃ v, x[C]? = some (.int .int v) ∧ rowNum C x = v := by
  obtain ⟨r, hr⟩ := List.getElem?_of_mem hx
  obtain ⟨h1, h2⟩ := h.first.keyCells h.wf hr
  have hl : x.length = C + 1 := by rw [h.wf.rowLen hr, h.len]
  refine ⟨h1.good h2 h.notNaN, hl, ?_⟩
  obtain ⟨a, ha⟩ : ∃ a, x[C]? = some a := ⟨_, List.getElem?_eq_getElem (by omega)⟩
  have := (h.wf.rowsOK x hx).2 C .int a h.number ha
  cases a with
  | int k v =>
    cases k <;> first | exact this.elim | exact ⟨v, ha, by simp [rowNum, ha]⟩
  | _ => exact this.elim

theorem CombineInput.sorted {C : Nat} {m : Table τ} (h : CombineInput C m) (srt : GoSort (List (Cell τ))) (lower : GoStr → GoStr) :
    ∃ rows, ({ m with sortKeys := m.sortKeys ++ [⟨tableNumberColName, .int, false⟩] } : Table τ).sort srt lower [] =
        ({ m with sortKeys := m.sortKeys ++ [⟨tableNumberColName, .int, false⟩], rows := rows }, .ok ()) ∧
      rows.Perm m.rows ∧
      rows.Pairwise (fun x y => lexCmp lower m.sortKeys (x.take m.sortKeys.length) (y.take m.sortKeys.length) ≤ 0 ∧
        (SameK lower m.sortKeys x y → rowNum C x ≤ rowNum C y)) := by
  let k : SortKey := ⟨tableNumberColName, .int, false⟩
  let m1 : Table τ := { m with sortKeys := m.sortKeys ++ [k] }
  have hw1 : WF m1 := h.wf.withKeys (by
    intro k' hk'
    rcases List.mem_append.1 hk' with h1 | h1
    · exact h.wf.keysOK k' h1
    · rw [List.mem_singleton.1 h1]; exact ⟨rfl, by show isValidColName tableNumberColName = true; decide⟩)
  have hnumT : HasColT m tableNumberColName .int := ⟨C, h.numName, h.number⟩
  have hlive : KeysLive m1 := by
    intro k' hk'
    rcases List.mem_append.1 hk' with h1 | h1
    · exact h.live k' h1
    · rw [List.mem_singleton.1 h1]; exact hnumT
  have hnan : KeysNotNaN m1 := by
    intro k' hk' r v hv
    rcases List.mem_append.1 hk' with h1 | h1
    · exact h.notNaN k' h1 r v hv
    · rw [List.mem_singleton.1 h1] at hv
      have := h.wf.At_hasType hnumT (a := v) (r := r) hv
      cases v <;> first | exact this.elim | exact id
  obtain ⟨rows, e, hp, hs⟩ := sortByKeys_ok srt lower m1 hw1 hlive hnan
  have hne : m1.sortKeys ≠ [] := by simp [m1]
  have esort : m1.sort srt lower [] = ({ m1 with rows := rows }, .ok ()) := by
    simp only [sort, List.length_nil, Nat.lt_irrefl, gt_iff_lt, if_false]
    rw [if_neg (by simpa using hne), e]
  refine ⟨rows, esort, hp, ?_⟩
  -- the sorted table
  have hwr : WF { m with rows := rows } := h.wf.subRows (fun r hr => hp.mem_iff.1 hr)
  have hr' : CombineInput C { m with rows := rows } :=
    { wf := hwr, notNil := h.notNil, live := h.live
      notNaN := by
        rintro k' hk' r v ⟨i, row, h1, h2, h3⟩
        obtain ⟨r', hr'⟩ := List.getElem?_of_mem (hp.mem_iff.1 (List.mem_of_getElem? h2))
        exact h.notNaN k' hk' r' v ⟨i, row, h1, hr', h3⟩
      someKey := h.someKey
      rows := fun e => h.rows (by simp only at e; rw [e] at hp; exact hp.symm.eq_nil)
      cols := h.cols, number := h.number, free := h.free }
  have hw2 : WF { m1 with rows := rows } := hw1.subRows (fun r hr => hp.mem_iff.1 hr)
  rw [List.pairwise_iff_getElem]
  intro i j hi hj hij
  have hx : rows[i]? = some rows[i] := List.getElem?_eq_getElem hi
  have hy : rows[j]? = some rows[j] := List.getElem?_eq_getElem hj
  generalize rows[i] = x at hx
  generalize rows[j] = y at hy
  obtain ⟨kx, tx⟩ := hr'.first.keyCells hr'.wf (r := i) hx
  obtain ⟨ky, ty⟩ := hr'.first.keyCells hr'.wf (r := j) hy
  obtain ⟨_, lx, vx, ex, nx⟩ := hr'.good (List.mem_of_getElem? hx)
  obtain ⟨_, ly, vy, ey, ny⟩ := hr'.good (List.mem_of_getElem? hy)
  have hxt := (hwr.rowsOK x (List.mem_of_getElem? hx)).2 C .int _ h.number ex
  have hyt := (hwr.rowsOK y (List.mem_of_getElem? hy)).2 C .int _ h.number ey
  have hnot := hs i j hij hj
  have kk : ∀ {r : Nat} {as : List (Cell τ)} {a : Cell τ}, KeyCells { m with rows := rows } r m.sortKeys as → At { m with rows := rows } tableNumberColName r a →
      KeyCells { m1 with rows := rows } r (m.sortKeys ++ [k]) (as ++ [a]) := by
    intro r as a h1 h2
    exact keyCells_congr (t := { m with rows := rows }) (fun _ _ => Iff.rfl) (keyCells_snoc (k := k) h1 h2)
  rw [rowBefore_iff lower hw2 (kk ky ⟨C, y, h.numName, hy, ey⟩) (kk kx ⟨C, x, h.numName, hx, ex⟩) (typed_snoc ty rfl hyt) (typed_snoc tx rfl hxt)] at hnot
  have lkx : (x.take m.sortKeys.length).length = m.sortKeys.length := by
    have := hr'.first.fits
    rw [hr'.len] at this
    rw [List.length_take, lx]; simp only at this; omega
  have lky : (y.take m.sortKeys.length).length = m.sortKeys.length := by
    rw [List.length_take, ly, ← lx, ← List.length_take, lkx]
  rw [lexCmp_snoc lower lky lkx] at hnot
  have hanti : lexCmp lower m.sortKeys (x.take m.sortKeys.length) (y.take m.sortKeys.length) =
      - lexCmp lower m.sortKeys (y.take m.sortKeys.length) (x.take m.sortKeys.length) := lexCmp_anti lower ty tx
  by_cases e0 : lexCmp lower m.sortKeys (y.take m.sortKeys.length) (x.take m.sortKeys.length) = 0
  · rw [if_neg (by simpa using e0)] at hnot
    refine ⟨by rw [hanti, e0]; omega, fun _ => ?_⟩
    rw [cmpKey_lt lower rfl hyt hxt] at hnot
    simp only [k, Bool.false_eq_true, if_false, Cell.Less] at hnot
    rw [nx, ny]; omega
  · rw [if_pos e0] at hnot
    exact ⟨by rw [hanti]; omega, fun hsame => absurd hsame (by simp only [SameK]; rw [hanti]; omega)⟩

theorem take_snoc {K : Nat} {x : List (Cell τ)} {v : Cell τ} (h : K ≤ x.length) : (x ++ [v]).take K = x.take K := by
  rw [List.take_append_of_le_length h]

/-- What stands before the loop over neighbouring rows. -/
structure Prepared (lower : GoStr → GoStr) (C : Nat) (m m4 : Table τ) (rows : List (List (Cell τ))) : Prop where
  perm : rows.Perm m.rows
  sorted : rows.Pairwise (fun x y => lexCmp lower m.sortKeys (x.take m.sortKeys.length) (y.take m.sortKeys.length) ≤ 0 ∧
    (SameK lower m.sortKeys x y → rowNum C x ≤ rowNum C y))
  framed : Framed C m4
  keys : m4.sortKeys = m.sortKeys
  rowsEq : m4.rows = rows.map (· ++ [.bool false])
  names : m4.colNames = m.colNames ++ [deleteColName]
  types : m4.colTypes = m.colTypes ++ [.bool]
  name : m4.name = m.name
  notNil : m4.isNilTable = false

theorem mergeCombine_prep (nt : Nat → Nat → τ) (srt : GoSort (List (Cell τ))) (lower : GoStr → GoStr) {C : Nat} {m : Table τ} (h : CombineInput C m) :
    ∃ m4 rows, mergeCombine nt srt lower m = orDrop (m4.mergeRows lower) ∧ Prepared lower C m m4 rows := by
  obtain ⟨e1⟩ : Nonempty (m.appendSortKey tableNumberColName = ({ m with sortKeys := m.sortKeys ++ [⟨tableNumberColName, .int, false⟩] }, .ok ())) := by
    rcases appendSortKey_cases h.wf tableNumberColName with ⟨ty, h1, h2, e⟩ | ⟨hno, _⟩
    · rw [HasColT.unique h.wf h1 ⟨C, h.numName, h.number⟩] at e; exact ⟨e⟩
    · exact absurd ⟨.int, ⟨C, h.numName, h.number⟩, rfl⟩ hno
  have E1 := orDrop_eq e1
  obtain ⟨rows, e2, hp, hsorted⟩ := h.sorted srt lower
  have E2 := orDrop_eq e2
  have e3 : ({ m with sortKeys := m.sortKeys ++ [⟨tableNumberColName, .int, false⟩], rows := rows } : Table τ).deleteSortKey tableNumberColName =
      ({ m with rows := rows }, .ok ()) := by
    have hi : ({ m with sortKeys := m.sortKeys ++ [⟨tableNumberColName, .int, false⟩], rows := rows } : Table τ).getColInfo tableNumberColName = .ok (tableNumberColName, .int) := by
      simp only [getColInfo, (h.wf.mapIff _ _).2 h.numName, h.number]
    simp only [deleteSortKey, hi]
    rw [deleteKeyLoop_last m.sortKeys ⟨tableNumberColName, .int, false⟩ (fun k' hk' => h.keyNe hk')]
  have E3 := orDrop_eq e3
  have hwr : WF { m with rows := rows } := h.wf.subRows (fun r hr => hp.mem_iff.1 hr)
  -- the new column
  have hrl : ∀ row ∈ rows, row.length = C + 1 := fun row hrow => (h.good (hp.mem_iff.1 hrow)).2.1
  have hfree : ({ m with rows := rows } : Table τ).colMap.get? deleteColName = none := by
    cases hg : ({ m with rows := rows } : Table τ).colMap.get? deleteColName with
    | none => rfl
    | some i => exact absurd (List.mem_of_getElem? ((hwr.mapIff _ _).1 hg)) h.free
  have e4 := appendCol_eq nt (t := { m with rows := rows }) h.notNil h.wf.typesLen (fun row hrow => by rw [hrl row hrow]; exact h.len.symm) (n := deleteColName) (ty := .bool)
    (by decide) hfree
  have hw4 := hwr.appendCol nt deleteColName ColType.bool.name
  rw [e4] at hw4
  have E4 := orDrop_eq e4
  have hname : ColType.bool.name = gs! "bool" := by decide
  rw [hname] at E4
  have hadd : addZeroCol nt ({ m with rows := rows } : Table τ).colNames.length .bool rows = rows.map (· ++ [.bool false]) := by
    apply List.ext_getElem?
    intro i
    simp [addZeroCol, zeroCell]
  simp only [hadd] at E4 hw4
  obtain ⟨m4, hm4⟩ : ∃ m4 : Table τ, m4 = Table.mk m.name (m.colNames ++ [deleteColName]) (m.colTypes ++ [ColType.bool])
    (m.colMap.insert deleteColName m.colNames.length) (rows.map (· ++ [.bool false])) m.sortKeys m.isStructShape m.isNilTable m.parent := ⟨_, rfl⟩
  rw [← hm4] at E4 hw4
  have k4 : m4.sortKeys = m.sortKeys := by rw [hm4]
  have r4 : m4.rows = rows.map (· ++ [.bool false]) := by rw [hm4]
  have n4 : m4.colNames = m.colNames ++ [deleteColName] := by rw [hm4]
  have t4 : m4.colTypes = m.colTypes ++ [.bool] := by rw [hm4]
  have htl : m.colTypes.length = C + 1 := by rw [h.wf.typesLen, h.len]
  obtain ⟨rest0, hcols, hC⟩ := h.cols
  have hlive4 : KeysLive m4 := by
    intro k hk
    rw [k4] at hk
    obtain ⟨i, h1, h2⟩ := h.live k hk
    exact ⟨i, by rw [n4, List.getElem?_append_left (List.getElem?_eq_some_iff.1 h1).1]; exact h1,
      by rw [t4, List.getElem?_append_left (List.getElem?_eq_some_iff.1 h2).1]; exact h2⟩
  have hframed : Framed C m4 :=
    { wf := hw4
      first := KeysFirst.of hw4 hlive4 (rest := rest0 ++ [tableNumberColName] ++ [deleteColName]) (by rw [n4, k4, hcols]; simp)
      someKey := by rw [k4]; exact h.someKey
      keys := by rw [k4, hC]; omega
      cols := by rw [n4, List.length_append, h.len]; rfl
      delName := by rw [n4, ← h.len, List.getElem?_append_right (Nat.le_refl _)]; simp
      delType := by rw [t4, ← htl, List.getElem?_append_right (Nat.le_refl _)]; simp }
  refine ⟨m4, rows, by simp only [mergeCombine, E1, E2, E3, E4, Out.bind], ?_⟩
  exact ⟨hp, hsorted, hframed, k4, r4, n4, t4, by rw [hm4], by rw [hm4]; exact h.notNil⟩

theorem Prepared.unmarked {lower : GoStr → GoStr} {C : Nat} {m m4 : Table τ} {rows : List (List (Cell τ))} (h : CombineInput C m)
    (hP : Prepared lower C m m4 rows) : ∀ x ∈ m4.rows, Verif.unmarked C x = true := by
  intro x hx
  rw [hP.rowsEq] at hx
  obtain ⟨y, hy, rfl⟩ := List.mem_map.1 hx
  have hl := (h.good (hP.perm.mem_iff.1 hy)).2.1
  simp only [Verif.unmarked]
  rw [← hl, List.getElem?_append_right (Nat.le_refl _)]; simp

theorem mergeCombine_ok (nt : Nat → Nat → τ) (srt : GoSort (List (Cell τ))) (lower : GoStr → GoStr) {C : Nat} {m : Table τ} (h : CombineInput C m)
    (hmg : ∀ c ty, c < C → m.colTypes[c]? = some ty → ty.Mergeable = true) :
    ∃ m', mergeCombine nt srt lower m = .ok m' ∧ Combined lower C m m' := by
  obtain ⟨m4, rows, E, hP⟩ := mergeCombine_prep nt srt lower h
  have hp := hP.perm
  have hsorted := hP.sorted
  have k4 := hP.keys
  have r4 := hP.rowsEq
  have n4 := hP.names
  have t4 := hP.types
  have htl : m.colTypes.length = C + 1 := by rw [h.wf.typesLen, h.len]
  obtain ⟨rest0, hcols, hC⟩ := h.cols
  have hrl : ∀ row ∈ rows, row.length = C + 1 := fun row hrow => (h.good (hp.mem_iff.1 hrow)).2.1
  have hmerging : Merging C m4 := ⟨hP.framed, by
    intro c hc
    have hlt : c < m.colTypes.length := by omega
    refine ⟨m.colTypes[c], by rw [t4, List.getElem?_append_left hlt]; exact List.getElem?_eq_getElem hlt, ?_⟩
    exact hmg c _ hc (List.getElem?_eq_getElem hlt)⟩
  have hne : rows ≠ [] := fun e => h.rows (by rw [e] at hp; exact hp.symm.eq_nil)
  obtain ⟨x0, xs, hxs⟩ := List.exists_cons_of_ne_nil hne
  obtain ⟨out, e5, hM5, hl5, hf5⟩ := mergeRows_eq lower hmerging (a := x0 ++ [.bool false]) (rest := xs.map (· ++ [.bool false])) (by rw [r4, hxs]; rfl)
    (hP.unmarked h)
  have E5 := orDrop_eq e5
  -- the rows that are left
  have hK : m.sortKeys.length ≤ C := by omega
  have hrowsB : (x0 ++ [.bool false]) :: xs.map (· ++ [.bool false]) = rows.map (fun x => x ++ [.bool false]) := by rw [hxs]; rfl
  have htake : ∀ x ∈ rows, (x ++ [Cell.bool false]).take m.sortKeys.length = x.take m.sortKeys.length := by
    intro x hx; exact take_snoc (by rw [hrl x hx]; omega)
  have hG : ∀ x ∈ rows.map (fun x => x ++ [Cell.bool false]), GoodVals m.sortKeys (x.take m.sortKeys.length) ∧ C ≤ x.length := by
    intro x hx
    obtain ⟨y, hy, rfl⟩ := List.mem_map.1 hx
    rw [htake y hy]
    exact ⟨(h.good (hp.mem_iff.1 hy)).1, by rw [List.length_append, hrl y hy]; omega⟩
  have hko := keyOrder (τ := τ) lower m.sortKeys C hK
  have hG0 := hG (x0 ++ [.bool false]) (by rw [← hrowsB]; simp)
  have spec := survivors_spec hko (xs.map (· ++ [.bool false])) [x0 ++ [.bool false]] (x0 ++ [.bool false]) (by simp) hG0
    (by rw [List.singleton_append, hrowsB]; exact hG)
    (by simp only [List.mem_singleton, forall_eq]; exact hko.refl hG0) (Best.single hG0.2)
    (by
      rw [List.singleton_append, hrowsB, List.pairwise_map]
      refine hsorted.imp_of_mem fun {x y} hx hy hxy => ?_
      rw [htake x hx, htake y hy]; exact hxy.1)
  rw [List.singleton_append, hrowsB] at spec
  have hsk : (fun a b => decide (lexCmp lower (ascending m.sortKeys) (a.take m.sortKeys.length) (b.take m.sortKeys.length) = 0)) =
      sameKeys (τ := τ) lower m.sortKeys := rfl
  rw [hsk] at spec hko
  rw [k4] at hf5
  obtain ⟨sp1, sp2, sp3⟩ := spec
  rw [← hf5] at sp1 sp2 sp3
  have hsameK : ∀ x ∈ rows, ∀ s, SameK lower m.sortKeys x s ↔ lexCmp lower m.sortKeys ((x ++ [Cell.bool false]).take m.sortKeys.length) (s.take m.sortKeys.length) = 0 := by
    intro x hx s
    rw [htake x hx]; rfl
  have hSG : ∀ s ∈ out.filter (unmarked C), GoodVals m.sortKeys (s.take m.sortKeys.length) ∧ C ≤ s.length := fun s hs => (sp1 s hs).1
  have hsym : ∀ {x y : List (Cell τ)}, GoodVals m.sortKeys (x.take m.sortKeys.length) → GoodVals m.sortKeys (y.take m.sortKeys.length) →
      SameK lower m.sortKeys x y → SameK lower m.sortKeys y x := by
    intro x y hx hy hxy
    simp only [SameK] at *
    rw [lexCmp_anti lower hx.typed hy.typed, hxy]; rfl
  have htr : ∀ {x y z : List (Cell τ)}, GoodVals m.sortKeys (x.take m.sortKeys.length) → GoodVals m.sortKeys (y.take m.sortKeys.length) →
      GoodVals m.sortKeys (z.take m.sortKeys.length) → SameK lower m.sortKeys x y → SameK lower m.sortKeys y z → SameK lower m.sortKeys x z := by
    intro x y z hx hy hz h1 h2
    have h1' := hsym hx hy h1
    have h2' := hsym hy hz h2
    simp only [SameK] at *
    have a1 := lexCmp_trans lower hx hy hz (by omega) (by omega)
    have a2 := lexCmp_trans lower hz hy hx (by omega) (by omega)
    rw [lexCmp_anti lower hx.typed hz.typed] at a2
    omega
  have hgm : ∀ x ∈ m.rows, GoodVals m.sortKeys (x.take m.sortKeys.length) := fun x hx => (h.good hx).1
  have hcnt := survivors_length C (sameKeys lower m.sortKeys) (xs.map (· ++ [.bool false])) (x0 ++ [.bool false])
  rw [← hf5] at hcnt
  have hlr : (xs.map (fun x => x ++ [Cell.bool false])).length + 1 = m.rows.length := by
    rw [List.length_map, ← hp.length_eq, hxs]; rfl
  refine ⟨{ m4 with rows := out }, ?_, ?_⟩
  · rw [E, E5]
  · exact {
      merging := hM5
      keys := k4
      name := hP.name
      notNil := hP.notNil
      cols := n4
      types := t4
      len := by rw [hl5, r4, List.length_map, hp.length_eq]
      good := fun s hs => (hSG s hs).1
      best := by
        intro s hs c hc
        obtain ⟨j, row, v, hj, hv, hsv, hmax⟩ := (sp1 s hs).2.2 c hc
        have hrow := List.mem_filter.1 (List.mem_of_getElem? hj)
        obtain ⟨x, hx, rfl⟩ := List.mem_map.1 hrow.1
        have hxs' : SameK lower m.sortKeys x s := (hsameK x hx s).2 (by simpa using hrow.2)
        refine ⟨x, v, hp.mem_iff.1 hx, hxs', ?_, hsv, ?_⟩
        · rw [List.getElem?_append_left (by rw [hrl x hx]; omega)] at hv; exact hv
        · intro x' w hx' hsame hw
          have hx2 : x' ∈ rows := hp.mem_iff.2 hx'
          have hin : x' ++ [.bool false] ∈ (rows.map (fun x => x ++ [Cell.bool false])).filter
              (fun x => decide (lexCmp lower m.sortKeys (x.take m.sortKeys.length) (s.take m.sortKeys.length) = 0)) :=
            List.mem_filter.2 ⟨List.mem_map.2 ⟨x', hx2, rfl⟩, by simpa using (hsameK x' hx2 s).1 hsame⟩
          obtain ⟨j', hj'⟩ := List.getElem?_of_mem hin
          have := hmax j' _ w hj' (by rw [List.getElem?_append_left (by rw [hrl x' hx2]; omega)]; exact hw)
          refine ⟨this.1, fun hw2 => ?_⟩
          have hle := this.2 hw2
          by_cases ejj : j = j'
          · subst ejj
            rw [hj] at hj'
            rw [List.append_cancel_right (Option.some.inj hj')]; omega
          · have hpw : ((rows.map (fun x => x ++ [Cell.bool false])).filter
              (fun x => decide (lexCmp lower m.sortKeys (x.take m.sortKeys.length) (s.take m.sortKeys.length) = 0))).Pairwise
                (fun x y => ∃ x1 y1, x = x1 ++ [Cell.bool false] ∧ y = y1 ++ [Cell.bool false] ∧ (SameK lower m.sortKeys x1 y1 → rowNum C x1 ≤ rowNum C y1)) := by
              refine List.Pairwise.filter _ ?_
              rw [List.pairwise_map]
              exact hsorted.imp fun {a b} hab => ⟨a, b, rfl, rfl, hab.2⟩
            obtain ⟨lj, ej⟩ := List.getElem?_eq_some_iff.1 hj
            obtain ⟨lj', ej'⟩ := List.getElem?_eq_some_iff.1 hj'
            obtain ⟨x1, y1, q1, q2, q3⟩ := List.pairwise_iff_getElem.1 hpw j j' lj lj' (by omega)
            rw [ej] at q1; rw [ej'] at q2
            have := List.append_cancel_right q1; subst this
            have := List.append_cancel_right q2; subst this
            exact q3 (htr (hgm _ (hp.mem_iff.1 hx)) (hSG s hs).1 (hgm _ hx') hxs' (hsym (hgm _ hx') (hSG s hs).1 hsame))
      unique := sp2.imp fun {x y} hxy hsame => by simp only [SameK] at hsame; omega
      cover := by
        intro x hx
        have hx2 : x ∈ rows := hp.mem_iff.2 hx
        obtain ⟨s, hs1, hs2⟩ := sp3 (x ++ [.bool false]) (List.mem_map.2 ⟨x, hx2, rfl⟩)
        exact ⟨s, hs1, (hsameK x hx2 s).2 hs2⟩
      count := by rw [← hlr]; exact hcnt.1
      full := by
        let R : List (Cell τ) → List (Cell τ) → Prop := fun x y => ¬ SameK lower m.sortKeys x y ∧ ¬ SameK lower m.sortKeys y x
        have hR : ∀ l : List (List (Cell τ)), (∀ x ∈ l, GoodVals m.sortKeys (x.take m.sortKeys.length)) →
            (l.Pairwise (fun x y => ¬ SameK lower m.sortKeys x y) ↔ l.Pairwise R) := by
          intro l hl
          constructor
          · intro hpw
            exact hpw.imp_of_mem fun {x y} hx hy hxy => ⟨hxy, fun e => hxy (hsym (hl y hy) (hl x hx) e)⟩
          · exact fun hpw => hpw.imp fun {x y} hxy => hxy.1
        have hRp : m.rows.Pairwise R ↔ rows.Pairwise R := (hp.pairwise_iff (fun {x y} hxy => ⟨hxy.2, hxy.1⟩)).symm
        rw [hR m.rows hgm, hRp, ← hR rows (fun x hx => hgm x (hp.mem_iff.1 hx))]
        constructor
        · intro hl
          have hall := hcnt.2 (by rw [hlr]; exact hl)
          rw [hall, hrowsB, List.pairwise_map] at sp2
          refine sp2.imp_of_mem fun {x y} hx hy hxy hsame => ?_
          rw [htake x hx, htake y hy] at hxy
          simp only [SameK] at hsame; omega
        · intro hpw
          show (out.filter (unmarked C)).length = _
          rw [hf5, survivors_all, List.length_cons, hlr]
          rw [hrowsB, List.pairwise_map]
          refine hpw.imp_of_mem fun {x y} hx hy hxy => ?_
          refine Bool.eq_false_iff.2 fun hs => hxy ?_
          have := (hko.same_iff _ _ (hG _ (List.mem_map.2 ⟨x, hx, rfl⟩)) (hG _ (List.mem_map.2 ⟨y, hy, rfl⟩))).1 hs
          simp only [htake x hx, htake y hy] at this
          exact this }

/-- If some column cannot be merged, the second part fails or marks no row. -/
theorem mergeCombine_bad (nt : Nat → Nat → τ) (srt : GoSort (List (Cell τ))) (lower : GoStr → GoStr) {C : Nat} {m : Table τ} (h : CombineInput C m)
    {c : Nat} {ty : ColType} (hc : c < C) (hty : m.colTypes[c]? = some ty) (hbad : ty.Mergeable = false) :
    (∃ e, mergeCombine nt srt lower m = .err e) ∨
    ∃ m4 rows, mergeCombine nt srt lower m = .ok m4 ∧ Prepared lower C m m4 rows := by
  obtain ⟨m4, rows, E, hP⟩ := mergeCombine_prep nt srt lower h
  have hlt := (List.getElem?_eq_some_iff.1 hty).1
  rcases mergeRows_bad lower hP.framed hc (ty := ty) (by rw [hP.types, List.getElem?_append_left hlt]; exact hty) hbad with ⟨t', e, he⟩ | he
  · left; exact ⟨e, by rw [E, he]; rfl⟩
  · right; exact ⟨m4, rows, by rw [E, he]; rfl, hP⟩

end Verif
