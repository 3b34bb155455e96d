import Verif.Props.C42

/-!
# C63: SortUnique keeps one row per key

`sortUnique nt srt lower t cols` is `t.SortUnique(cols...)` with the table afterwards; `.fresh m` says that the result is the new table `m`.
-/

namespace Verif
variable {τ : Type}
open Table

/-- What `SortUnique` needs of a table; `names` are the key columns. -/
structure UniqueInput (names : List GoStr) (t : Table τ) : Prop where
  wf : WF t
  someKey : names ≠ []
  distinct : names.Nodup
  key : ∀ n ∈ names, SortableCol t n
  notNaN : ∀ n ∈ names, ∀ r v, At t n r v → ¬ v.IsNaN
  free : gs! "_TABLE_" ∉ t.colNames ∧ gs! "_DELETE_" ∉ t.colNames

theorem UniqueInput.merge {names : List GoStr} {t : Table τ} (h : UniqueInput names t) (hr : t.rows ≠ []) : MergeInput names t t where
  wf1 := h.wf
  wf2 := h.wf
  rows1 := hr
  rows2 := hr
  someKey := h.someKey
  distinct := h.distinct
  key := fun n hn => by obtain ⟨ty, h1, h2⟩ := h.key n hn; exact ⟨ty, h1, h1, h2⟩
  notNaN1 := h.notNaN
  notNaN2 := h.notNaN
  shared := fun _ _ _ h1 h2 => HasColT.unique h.wf h1 h2
  free1 := h.free
  free2 := h.free

theorem RowBefore.congr {lower : GoStr → GoStr} {t t' : Table τ} (h : ∀ n r v, At t n r v ↔ At t' n r v) (ks : List SortKey) (i j : Nat) :
    RowBefore lower t ks i j ↔ RowBefore lower t' ks i j := by
  induction ks with
  | nil => rfl
  | cons k ks ih => simp only [RowBefore, KeyBefore, h, ih]

theorem IsMerge.toUnique {lower : GoStr → GoStr} {keys : List SortKey} {t m : Table τ} (h : IsMerge lower keys t t m) (ht : WF t)
    (hv : isValidTableName t.name = true) : IsUnique lower keys t { m with name := t.name, isNilTable := false } where
  wf := by
    have := h.wf.setName t.name
    simpa [setName, hv] using this
  name := rfl
  cols := by
    show m.colNames = _
    rw [h.cols]
    have : t.colNames.filter (fun n => decide (n ∉ t.colNames ∧ n ∉ keys.map (·.colName))) = [] := by
      rw [List.filter_eq_nil_iff]; intro n hn; simp [hn]
    rw [this, List.append_nil]
  types := fun n ty => (h.types n ty).trans (by simp)
  sameKeys := h.sameKeys
  live := h.live
  sorted := fun i j hij hj hb => h.sorted i j hij hj ((RowBefore.congr (t := { m with name := t.name, isNilTable := false }) (t' := m) (fun _ _ _ => Iff.rfl) _ _ _).1 hb)
  unique := h.unique
  cover := h.cover1
  cells := by
    intro n i v hv
    have hv : At m n i v := hv
    obtain ⟨ty, hty⟩ := HasColT.ofMem h.wf (At_bound hv).1
    have hn : n ∈ t.colNames := ((h.types n ty).1 hty).elim HasColT.mem HasColT.mem
    obtain ⟨c1, c2, _⟩ := h.cells n ty i v hty hv
    have c1 : Gives (keys.map (·.colName)) t m i n ty v := c1.elim id id
    obtain ⟨r, hr, hg⟩ := c1
    refine ⟨⟨r, hr, ?_⟩, fun r w hr hw => c2 w (.inl ⟨r, hr, .inl hw⟩)⟩
    rcases hg with hg | ⟨hg, _⟩
    · exact hg
    · exact absurd hn hg

/-- **C63.** For a table with rows and sort keys (distinct sortable columns without NaN) and no columns named `_TABLE_` or `_DELETE_`:
`SortUnique()` succeeds exactly if all columns have a type that can be merged; then the result is a new table with one row for each key.
Otherwise it answers an error.  The table keeps everything (its sort keys are set anew, with the same columns and directions). -/
theorem C63_sortUnique (nt : Nat → Nat → τ) (srt : GoSort (List (Cell τ))) (lower : GoStr → GoStr) (t : Table τ)
    (h : UniqueInput (t.sortKeys.map (·.colName)) t) (hr : t.rows ≠ []) :
    ∃ ks o, sortUnique nt srt lower t [] = ({ t with sortKeys := ks }, o) ∧
      ks.map (fun k => (k.colName, k.reverse)) = t.sortKeys.map (fun k => (k.colName, k.reverse)) ∧
      (AllMergeable t → ∃ m, o = .ok (.fresh m) ∧ IsUnique lower t.sortKeys t m) ∧ (¬ AllMergeable t → ∃ e, o = .err e) := by
  have hne : t.sortKeys ≠ [] := fun e => h.someKey (by rw [e]; rfl)
  have hk : mergeKeys t t = t.sortKeys := by simp [mergeKeys]
  have hmi := h.merge hr
  obtain ⟨ks, e, d, _⟩ := C23_setSortKeysFromTable t t h.wf hne (fun k hk => h.key _ (List.mem_map.2 ⟨k, hk, rfl⟩)) (consistent_of_nodup h.distinct)
  have w : WF { t with sortKeys := ks } := by have := h.wf.setSortKeysFromTable t; rw [e] at this; exact this
  have hn : ks.map (·.colName) = t.sortKeys.map (·.colName) := by rw [dirs_names, show dirs ks = dirs t.sortKeys from d, ← dirs_names]
  have hin : MergeInput (ks.map (·.colName)) { t with sortKeys := ks } { t with sortKeys := ks } := by rw [hn]; exact hmi.withKeys w w
  obtain ⟨c1, c2⟩ := merge_core nt srt lower (t1 := { t with sortKeys := ks }) hin
  have r0 : ¬ t.rowCount = 0 := fun e => hr (List.length_eq_zero_iff.1 e)
  have l0 : ¬ t.sortKeys.length = 0 := by simpa using hne
  have hnil : t.isNilTable = false := by
    cases hn : t.isNilTable with
    | false => rfl
    | true => exact absurd (h.wf.nilEmpty hn).2 hr
  have hv := h.wf.nameValid hnil
  -- some key occurs twice: that of the first row, once in each copy
  have hrep : SomeRepeat (t.sortKeys.map (·.colName)) t t := by
    have h0 : 0 < t.rows.length := List.length_pos_iff.2 hr
    refine .inl ⟨0, 0, h0, h0, fun n hn => ?_⟩
    obtain ⟨ty, h1, h2⟩ := h.key n hn
    obtain ⟨v, hv⟩ := At_exists h.wf h1.mem h0
    refine ⟨v, v, hv, hv, ?_⟩
    have := h.notNaN n hn 0 v hv
    cases v <;> simp_all [Cell.EqVal, Cell.IsNaN, f32Eq, f64Eq]
  refine ⟨ks, (mergeCollect nt { t with sortKeys := ks } { t with sortKeys := ks }).bind fun m => (mergeCombine nt srt lower m).bind fun m =>
    (mergeClean srt lower { t with sortKeys := ks } m).bind fun m => (orDrop (m.setName t.name)).bind fun m => .ok (.fresh m), ?_, d, ?_, ?_⟩
  · simp [sortUnique, l0, r0, e]
  · intro hm
    obtain ⟨m, em, hm⟩ := c1 ⟨by show SomeRepeat (ks.map (·.colName)) t t; rw [hn]; exact hrep, hm, hm⟩
    refine ⟨{ m with name := t.name, isNilTable := false }, ?_, IsMerge.toUnique (hm.withoutKeys d) h.wf hv⟩
    cases e1 : mergeCollect nt { t with sortKeys := ks } { t with sortKeys := ks } with
    | err _ => rw [e1] at em; cases em
    | panic => rw [e1] at em; cases em
    | ok m1 =>
      rw [e1] at em
      simp only [Out.bind] at em ⊢
      cases e2 : mergeCombine nt srt lower m1 with
      | err _ => rw [e2] at em; cases em
      | panic => rw [e2] at em; cases em
      | ok m2 =>
        rw [e2] at em
        simp only at em ⊢
        rw [em]
        simp [setName, hv, orDrop]
  · intro hno
    obtain ⟨x, ex⟩ := c2 (fun hs => hno hs.2.1)
    refine ⟨x, ?_⟩
    cases e1 : mergeCollect nt { t with sortKeys := ks } { t with sortKeys := ks } with
    | err _ => rw [e1] at ex; cases ex; rfl
    | panic => rw [e1] at ex; cases ex
    | ok m1 =>
      rw [e1] at ex
      simp only [Out.bind] at ex ⊢
      cases e2 : mergeCombine nt srt lower m1 with
      | err _ => rw [e2] at ex; cases ex; rfl
      | panic => rw [e2] at ex; cases ex
      | ok m2 =>
        rw [e2] at ex
        simp only at ex ⊢
        rw [ex]

/-- **C63.** With columns named, it first sets the sort keys to these columns, ascending; if one of them is not a sortable column, it answers
an error. -/
theorem C63_columns (nt : Nat → Nat → τ) (srt : GoSort (List (Cell τ))) (lower : GoStr → GoStr) (t : Table τ) (h : WF t) (names : List GoStr)
    (hne : names ≠ []) :
    ((∀ n ∈ names, SortableCol t n) → ∃ keys, AscendingKeys t names keys ∧
      sortUnique nt srt lower t names = sortUnique nt srt lower { t with sortKeys := keys } []) ∧
    (¬ (∀ n ∈ names, SortableCol t n) → ∃ e, (sortUnique nt srt lower t names).2 = .err e) := by
  obtain ⟨h1, h2, h3⟩ := C23_setSortKeys t h names
  have hl : names.length > 0 := List.length_pos_iff.2 hne
  constructor
  · intro hall
    have hok := h1.2 hall
    obtain ⟨keys, e, hk⟩ := h2 hok
    have e2 : t.setSortKeys names = ({ t with sortKeys := keys }, .ok ()) := by rw [← e, ← hok]
    exact ⟨keys, hk, by simp only [sortUnique, hl, if_true, e2, List.length_nil, Nat.lt_irrefl, gt_iff_lt, if_false]⟩
  · intro hno
    have hno : (t.setSortKeys names).2 ≠ .ok () := fun e => hno (h1.1 e)
    cases e : t.setSortKeys names with
    | mk t1 o =>
      rw [e] at hno h3
      cases o with
      | ok u => exact absurd rfl hno
      | panic => exact absurd rfl h3
      | err x => exact ⟨x, by simp only [sortUnique, hl, if_true, e]⟩

/-- **C63.** Without sort keys it answers an error. -/
theorem C63_no_keys (nt : Nat → Nat → τ) (srt : GoSort (List (Cell τ))) (lower : GoStr → GoStr) (t : Table τ) (h : t.sortKeys = []) :
    sortUnique nt srt lower t [] = (t, .err .noSortKeys) := by simp [sortUnique, h]

/-- **C63.** Although "the returned table is new", a table without rows is returned itself. -/
theorem C63_empty (nt : Nat → Nat → τ) (srt : GoSort (List (Cell τ))) (lower : GoStr → GoStr) (t : Table τ) (h : WF t) (hl : KeysLive t)
    (hk : t.sortKeys ≠ []) (hr : t.rows = []) : sortUnique nt srt lower t [] = (t, .ok .receiver) := by
  obtain ⟨k, hk'⟩ := List.exists_mem_of_ne_nil _ hk
  have hnil : t.isNilTable = false := by
    cases hn : t.isNilTable with
    | false => rfl
    | true =>
      have := (hl k hk').mem
      rw [(h.nilEmpty hn).1] at this
      cases this
  obtain ⟨rows, e, p, _⟩ := sort_eq srt lower h hk hl (fun k _ r v hv => by
    obtain ⟨i, row, _, h2, _⟩ := hv; rw [hr] at h2; simp at h2)
  have hrows : rows = [] := by rw [hr] at p; exact List.Perm.eq_nil p
  have l0 : ¬ t.sortKeys.length = 0 := by simpa using hk
  have et : { t with rows := rows } = t := by rw [hrows, ← hr]
  rw [et] at e
  have en : t.setName t.name = (t, .ok ()) := by
    simp only [setName, h.nameValid hnil]
    rw [if_neg (by simp), ← hnil]
  simp [sortUnique, l0, rowCount, hr, e, en, Out.bind]

/-- **C63.** If no two rows of the table have the same key, the rows of the result are those of the table. -/
theorem C63_distinct (lower : GoStr → GoStr) (t m : Table τ) (keys : List SortKey) (ht : WF t) (h : IsUnique lower keys t m)
    (hu : UniqueKeys (keys.map (·.colName)) t) (r : Nat) (hr : r < t.rows.length) :
    ∃ i, ∀ n v, At t n r v ↔ At m n i v := by
  obtain ⟨i, hi⟩ := h.cover r hr
  have key : ∀ n v, At m n i v → At t n r v := by
    intro n v hv
    obtain ⟨r', hr', hv'⟩ := (h.cells n i v hv).1
    rw [hu r r' (SameKey.common h.wf hi hr')]; exact hv'
  refine ⟨i, fun n v => ⟨fun hv => ?_, key n v⟩⟩
  obtain ⟨ty, hty⟩ := HasColT.ofMem ht (At_bound hv).1
  obtain ⟨v', hv'⟩ := At_exists h.wf ((h.types n ty).2 hty).mem hi.1
  rw [At_unique ht hv (key n v' hv')]; exact hv'

/-! ## Examples -/

/-- Columns `x` (float64) and `k` (int): (0, 5), (7 as bits, 7), (9 as bits, 5). -/
def Ex.dup : Table Unit := Op.run newNilTable
  [.setName (gs! "d"), .appendCol (fun _ _ => ()) (gs! "x") (gs! "float64"), .appendCol (fun _ _ => ()) (gs! "k") (gs! "int"),
   .appendRows (fun _ _ => ()) 3, .setVal (gs! "k") 0 (.int .int 5), .setVal (gs! "k") 1 (.int .int 7), .setVal (gs! "x") 1 (.f64 7),
   .setVal (gs! "k") 2 (.int .int 5), .setVal (gs! "x") 2 (.f64 9), .setSortKeys [gs! "k"]]

theorem Ex.dup_wf : WF Ex.dup := C01_history _ WF.newNilTable _ (by simp [Op.ArgsOK, Cell.Real, IntKind.lo, IntKind.hi])

-- the hypotheses are met
example : UniqueInput (Ex.dup.sortKeys.map (·.colName)) Ex.dup ∧ Ex.dup.rows ≠ [] ∧ AllMergeable Ex.dup := by
  have hc : Ex.dup.colNames = [gs! "x", gs! "k"] ∧ Ex.dup.colTypes = [.float64, .int] := by decide +kernel
  have hk : Ex.dup.sortKeys.map (·.colName) = [gs! "k"] := by decide +kernel
  have hA : HasColT Ex.dup (gs! "k") .int := ⟨1, by rw [hc.1]; rfl, by rw [hc.2]; rfl⟩
  rw [hk]
  refine ⟨⟨Ex.dup_wf, by decide, by decide, ?_, ?_, by rw [hc.1]; decide⟩, by decide +kernel, ?_⟩
  · intro n hn; rw [List.mem_singleton.1 hn]; exact ⟨.int, hA, rfl⟩
  · intro n hn; rw [List.mem_singleton.1 hn]; exact Ex.intNotNaN Ex.dup_wf hA
  · intro n ty hc'; rcases Ex.hasCol2 hc hc' with ⟨_, rfl⟩ | ⟨_, rfl⟩ <;> rfl

example : Ex.fresh (sortUnique (fun _ _ => ()) (insertionSort _) Ex.asciiLower Ex.dup []).2 =
    some ([gs! "k", gs! "x"], [[.int .int 5, .f64 9], [.int .int 7, .f64 7]]) := by decide +kernel

end Verif
