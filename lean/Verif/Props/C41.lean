import Verif.Lemmas.MergeAll

/-!
# C41: Merge combines matching rows by key

`merge nt srt lower t1 t2` is `t1.Merge(t2)` with the tables afterwards; `.fresh m` says that the result is the new table `m`.
The keys are those of the first table if it has any, else those of the second (`mergeKeys`).
-/

namespace Verif
variable {τ : Type}
open Table

theorem MergeInput.withKeys {names : List GoStr} {t1 t2 : Table τ} (h : MergeInput names t1 t2) {k1 k2 : List SortKey}
    (w1 : WF { t1 with sortKeys := k1 }) (w2 : WF { t2 with sortKeys := k2 }) :
    MergeInput names { t1 with sortKeys := k1 } { t2 with sortKeys := k2 } :=
  ⟨w1, w2, h.rows1, h.rows2, h.someKey, h.distinct, h.key, h.notNaN1, h.notNaN2, h.shared, h.free1, h.free2⟩

theorem IsMerge.withoutKeys {lower : GoStr → GoStr} {keys keys' : List SortKey} {t1 t2 m : Table τ} {k1 k2 : List SortKey} (hd : dirs keys = dirs keys')
    (h : IsMerge lower keys { t1 with sortKeys := k1 } { t2 with sortKeys := k2 } m) : IsMerge lower keys' t1 t2 m := by
  have hn : keys.map (·.colName) = keys'.map (·.colName) := by rw [dirs_names, hd, ← dirs_names]
  obtain ⟨h1, h2, h3, h4, h5, h6, h7, h8, h9, h10, h11⟩ := h
  rw [hn] at h3 h8 h9 h10 h11
  exact ⟨h1, h2, h3, h4, h5.trans hd, h6, h7, h8, h9, h10, h11⟩

/-- The names, keys and directions of the two tables become those of `mergeKeys`; nothing else changes. -/
theorem setSortKeysBetween_ok {t1 t2 : Table τ} (h : MergeInput ((mergeKeys t1 t2).map (·.colName)) t1 t2) :
    ∃ k1 k2, setSortKeysBetween t1 t2 = (({ t1 with sortKeys := k1 }, { t2 with sortKeys := k2 }), .ok ()) ∧
      dirs k1 = dirs (mergeKeys t1 t2) ∧ dirs k2 = dirs (mergeKeys t1 t2) ∧ WF { t1 with sortKeys := k1 } ∧ WF { t2 with sortKeys := k2 } := by
  have hcon := consistent_of_nodup h.distinct
  have hne : mergeKeys t1 t2 ≠ [] := fun e => h.someKey (by rw [e]; rfl)
  by_cases h1 : t1.sortKeys = []
  · have hk : mergeKeys t1 t2 = t2.sortKeys := by simp [mergeKeys, h1]
    rw [hk] at h hcon hne ⊢
    obtain ⟨ks, e, d, _⟩ := C23_setSortKeysFromTable t1 t2 h.wf1 hne (fun k hk' => by
      obtain ⟨ty, g1, _, g3⟩ := h.key k.colName (List.mem_map.2 ⟨k, hk', rfl⟩)
      exact ⟨ty, g1, g3⟩) hcon
    refine ⟨ks, t2.sortKeys, ?_, d, rfl, ?_, h.wf2⟩
    · simp only [setSortKeysBetween, h1, e]
      have : t2.sortKeys.length > 0 := List.length_pos_iff.2 hne
      simp [this]
    · have := h.wf1.setSortKeysFromTable t2
      rw [e] at this; exact this
  · have hk : mergeKeys t1 t2 = t1.sortKeys := by simp [mergeKeys, h1]
    rw [hk] at h hcon hne ⊢
    obtain ⟨ks, e, d, _⟩ := C23_setSortKeysFromTable t2 t1 h.wf2 hne (fun k hk' => by
      obtain ⟨ty, _, g1, g3⟩ := h.key k.colName (List.mem_map.2 ⟨k, hk', rfl⟩)
      exact ⟨ty, g1, g3⟩) hcon
    refine ⟨t1.sortKeys, ks, ?_, rfl, d, h.wf1, ?_⟩
    · simp only [setSortKeysBetween, e]
      have : t1.sortKeys.length > 0 := List.length_pos_iff.2 hne
      simp [this]
    · have := h.wf2.setSortKeysFromTable t1
      rw [e] at this; exact this

/-- **C41.** For two non-empty tables with the same key columns (distinct, sortable, without NaN), shared columns of the same type, and no
columns named `_TABLE_` or `_DELETE_`: `Merge` succeeds exactly if some key occurs more than once in the rows of the two tables and all
columns have a type that can be merged; otherwise it answers an error; it never panics.  If it succeeds the result is a new table with one
row for each key.  The two tables keep everything but their sort keys, which become the keys of the merge. -/
theorem C41_merge (nt : Nat → Nat → τ) (srt : GoSort (List (Cell τ))) (lower : GoStr → GoStr) (t1 t2 : Table τ)
    (h : MergeInput ((mergeKeys t1 t2).map (·.colName)) t1 t2) :
    ∃ k1 k2 o, merge nt srt lower t1 t2 = (({ t1 with sortKeys := k1 }, { t2 with sortKeys := k2 }), o) ∧
      k1.map (fun k => (k.colName, k.reverse)) = (mergeKeys t1 t2).map (fun k => (k.colName, k.reverse)) ∧
      k2.map (fun k => (k.colName, k.reverse)) = (mergeKeys t1 t2).map (fun k => (k.colName, k.reverse)) ∧
      (SomeRepeat ((mergeKeys t1 t2).map (·.colName)) t1 t2 ∧ AllMergeable t1 ∧ AllMergeable t2 →
        ∃ m, o = .ok (.fresh m) ∧ IsMerge lower (mergeKeys t1 t2) t1 t2 m) ∧
      (¬ (SomeRepeat ((mergeKeys t1 t2).map (·.colName)) t1 t2 ∧ AllMergeable t1 ∧ AllMergeable t2) → ∃ e, o = .err e) := by
  obtain ⟨k1, k2, e, d1, d2, w1, w2⟩ := setSortKeysBetween_ok h
  have hn : k1.map (·.colName) = (mergeKeys t1 t2).map (·.colName) := by rw [dirs_names, d1, ← dirs_names]
  have hin : MergeInput (k1.map (·.colName)) { t1 with sortKeys := k1 } { t2 with sortKeys := k2 } := by
    rw [hn]; exact h.withKeys w1 w2
  obtain ⟨c1, c2⟩ := merge_core nt srt lower (t1 := { t1 with sortKeys := k1 }) hin
  have r1 : ¬ t1.rowCount = 0 := fun e => h.rows1 (List.length_eq_zero_iff.1 e)
  have r2 : ¬ t2.rowCount = 0 := fun e => h.rows2 (List.length_eq_zero_iff.1 e)
  have hbind : ∀ x : Out (Table τ), ((mergeCollect nt { t1 with sortKeys := k1 } { t2 with sortKeys := k2 }).bind fun m =>
        (mergeCombine nt srt lower m).bind fun m => mergeClean srt lower { t1 with sortKeys := k1 } m) = x →
      ((mergeCollect nt { t1 with sortKeys := k1 } { t2 with sortKeys := k2 }).bind fun m => (mergeCombine nt srt lower m).bind fun m =>
        (mergeClean srt lower { t1 with sortKeys := k1 } m).bind fun m => .ok (MergeResult.fresh m)) = x.bind fun m => .ok (.fresh m) := by
    intro x hx
    rw [← hx]
    cases mergeCollect nt { t1 with sortKeys := k1 } { t2 with sortKeys := k2 } with
    | ok m => simp only [Out.bind]; cases mergeCombine nt srt lower m <;> rfl
    | err _ => rfl
    | panic => rfl
  refine ⟨k1, k2, (mergeCollect nt { t1 with sortKeys := k1 } { t2 with sortKeys := k2 }).bind fun m => (mergeCombine nt srt lower m).bind fun m =>
    (mergeClean srt lower { t1 with sortKeys := k1 } m).bind fun m => .ok (MergeResult.fresh m), ?_, d1, d2, ?_, ?_⟩
  · simp only [merge, r1, r2, if_false, e]
  · rintro ⟨hs, hm⟩
    obtain ⟨f, ef, hf⟩ := c1 ⟨by show SomeRepeat (k1.map (·.colName)) t1 t2; rw [hn]; exact hs, hm⟩
    exact ⟨f, hbind _ ef, hf.withoutKeys d1⟩
  · intro hno
    obtain ⟨x, ex⟩ := c2 (by
      rintro ⟨hs, hm⟩
      refine hno ⟨?_, hm⟩
      rw [← hn]; exact hs)
    exact ⟨x, hbind _ ex⟩

/-- **C41.** With an empty first table and a second one with live keys, the result is the second table itself, sorted. -/
theorem C41_empty_receiver (nt : Nat → Nat → τ) (srt : GoSort (List (Cell τ))) (lower : GoStr → GoStr) (t1 t2 : Table τ) (h2 : WF t2)
    (hr : t1.rows = []) (hne : t2.sortKeys ≠ []) (hl : KeysLive t2) (hn : KeysNotNaN t2) :
    ∃ t2', merge nt srt lower t1 t2 = ((t1, t2'), .ok .argument) ∧ SameHeader t2 t2' ∧ t2'.rows.Perm t2.rows ∧ SortedByKeys lower t2' := by
  obtain ⟨rows, e, p, s⟩ := sort_eq srt lower h2 hne hl hn
  refine ⟨{ t2 with rows := rows }, ?_, by simp [SameHeader], p, s⟩
  have : ¬ t2.sortKeys.length = 0 := by simpa using hne
  simp [merge, rowCount, hr, this, e, Out.bind]

/-- **C41.** With an empty argument and live keys of the receiver, the result is the receiver itself, sorted. -/
theorem C41_empty_argument (nt : Nat → Nat → τ) (srt : GoSort (List (Cell τ))) (lower : GoStr → GoStr) (t1 t2 : Table τ) (h1 : WF t1)
    (hr1 : t1.rows ≠ []) (hr : t2.rows = []) (hne : t1.sortKeys ≠ []) (hl : KeysLive t1) (hn : KeysNotNaN t1) :
    ∃ t1', merge nt srt lower t1 t2 = ((t1', t2), .ok .receiver) ∧ SameHeader t1 t1' ∧ t1'.rows.Perm t1.rows ∧ SortedByKeys lower t1' := by
  obtain ⟨rows, e, p, s⟩ := sort_eq srt lower h1 hne hl hn
  refine ⟨{ t1 with rows := rows }, ?_, by simp [SameHeader], p, s⟩
  have : ¬ t1.sortKeys.length = 0 := by simpa using hne
  have r1 : ¬ t1.rows.length = 0 := by simpa using hr1
  simp [merge, rowCount, hr, r1, this, e, Out.bind]

/-- **C41.** Two tables without sort keys cannot be merged; nothing changes. -/
theorem C41_no_keys (nt : Nat → Nat → τ) (srt : GoSort (List (Cell τ))) (lower : GoStr → GoStr) (t1 t2 : Table τ)
    (h1 : t1.sortKeys = []) (h2 : t2.sortKeys = []) : merge nt srt lower t1 t2 = ((t1, t2), .err .noSortKeys) := by
  simp only [merge, setSortKeysBetween, h1, h2]
  by_cases r1 : t1.rowCount = 0 <;> by_cases r2 : t2.rowCount = 0 <;> simp [r1, r2]

/-! ## Examples -/

/-- Column `x` (float64) and the key `k` (int, descending): (0, 5), (7 as bits, 7), (0, 0). -/
def Ex.mergeA : Table Unit := Op.run newNilTable
  [.setName (gs! "a"), .appendCol (fun _ _ => ()) (gs! "x") (gs! "float64"), .appendCol (fun _ _ => ()) (gs! "k") (gs! "int"),
   .appendRows (fun _ _ => ()) 3, .setVal (gs! "k") 0 (.int .int 5), .setVal (gs! "k") 1 (.int .int 7), .setVal (gs! "x") 1 (.f64 7),
   .setSortKeys [gs! "k"], .setSortKeysReverse [gs! "k"]]

/-- The key `k` and column `y` (string), without sort keys: (5, "A"), (9, ""). -/
def Ex.mergeB : Table Unit := Op.run newNilTable
  [.setName (gs! "b"), .appendCol (fun _ _ => ()) (gs! "k") (gs! "int"), .appendCol (fun _ _ => ()) (gs! "y") (gs! "string"),
   .appendRows (fun _ _ => ()) 2, .setVal (gs! "k") 0 (.int .int 5), .setVal (gs! "y") 0 (.str [65]), .setVal (gs! "k") 1 (.int .int 9)]

/-- The keys 1 and 2 only. -/
def Ex.mergeC : Table Unit := Op.run newNilTable
  [.setName (gs! "c"), .appendCol (fun _ _ => ()) (gs! "k") (gs! "int"), .appendRows (fun _ _ => ()) 2,
   .setVal (gs! "k") 0 (.int .int 1), .setVal (gs! "k") 1 (.int .int 2)]

theorem Ex.mergeA_wf : WF Ex.mergeA := C01_history _ WF.newNilTable _ (by simp [Op.ArgsOK, Cell.Real, IntKind.lo, IntKind.hi])
theorem Ex.mergeB_wf : WF Ex.mergeB := C01_history _ WF.newNilTable _ (by simp [Op.ArgsOK, Cell.Real, IntKind.lo, IntKind.hi])
theorem Ex.mergeC_wf : WF Ex.mergeC := C01_history _ WF.newNilTable _ (by simp [Op.ArgsOK, Cell.Real, IntKind.lo, IntKind.hi])

theorem Ex.mergeA_cols : Ex.mergeA.colNames = [gs! "x", gs! "k"] ∧ Ex.mergeA.colTypes = [.float64, .int] := by decide +kernel
theorem Ex.mergeB_cols : Ex.mergeB.colNames = [gs! "k", gs! "y"] ∧ Ex.mergeB.colTypes = [.int, .string] := by decide +kernel
theorem Ex.mergeC_cols : Ex.mergeC.colNames = [gs! "k"] ∧ Ex.mergeC.colTypes = [.int] := by decide +kernel

theorem Ex.hasCol2 {t : Table Unit} {n1 n2 : GoStr} {y1 y2 : ColType} (h : t.colNames = [n1, n2] ∧ t.colTypes = [y1, y2]) {n : GoStr} {ty : ColType}
    (hc : HasColT t n ty) : (n = n1 ∧ ty = y1) ∨ (n = n2 ∧ ty = y2) := by
  obtain ⟨i, h1, h2⟩ := hc
  rw [h.1] at h1; rw [h.2] at h2
  match i, h1, h2 with
  | 0, h1, h2 => cases h1; cases h2; exact .inl ⟨rfl, rfl⟩
  | 1, h1, h2 => cases h1; cases h2; exact .inr ⟨rfl, rfl⟩
  | i + 2, h1, h2 => simp at h1

theorem Ex.intNotNaN {t : Table Unit} (h : WF t) {n : GoStr} (hc : HasColT t n .int) : ∀ r v, At t n r v → ¬ v.IsNaN := by
  intro r v hv hnan
  have := h.At_hasType hc hv
  cases v <;> first | exact hnan | exact this

theorem Ex.mergeInput : MergeInput ((mergeKeys Ex.mergeA Ex.mergeB).map (·.colName)) Ex.mergeA Ex.mergeB := by
  have hk : (mergeKeys Ex.mergeA Ex.mergeB).map (·.colName) = [gs! "k"] := by decide +kernel
  rw [hk]
  have hA : HasColT Ex.mergeA (gs! "k") .int := ⟨1, by rw [Ex.mergeA_cols.1]; rfl, by rw [Ex.mergeA_cols.2]; rfl⟩
  have hB : HasColT Ex.mergeB (gs! "k") .int := ⟨0, by rw [Ex.mergeB_cols.1]; rfl, by rw [Ex.mergeB_cols.2]; rfl⟩
  exact {
    wf1 := Ex.mergeA_wf, wf2 := Ex.mergeB_wf, rows1 := by decide +kernel, rows2 := by decide +kernel
    someKey := by decide, distinct := by decide
    key := by intro n hn; rw [List.mem_singleton.1 hn]; exact ⟨.int, hA, hB, rfl⟩
    notNaN1 := by intro n hn; rw [List.mem_singleton.1 hn]; exact Ex.intNotNaN Ex.mergeA_wf hA
    notNaN2 := by intro n hn; rw [List.mem_singleton.1 hn]; exact Ex.intNotNaN Ex.mergeB_wf hB
    shared := by
      intro n ty ty' h1 h2
      rcases Ex.hasCol2 Ex.mergeA_cols h1 with ⟨rfl, rfl⟩ | ⟨rfl, rfl⟩ <;> rcases Ex.hasCol2 Ex.mergeB_cols h2 with ⟨e, rfl⟩ | ⟨e, rfl⟩
      · exact absurd e (by decide)
      · exact absurd e (by decide)
      · rfl
      · exact absurd e (by decide)
    free1 := by rw [Ex.mergeA_cols.1]; decide
    free2 := by rw [Ex.mergeB_cols.1]; decide }

theorem Ex.mergeable : AllMergeable Ex.mergeA ∧ AllMergeable Ex.mergeB := by
  constructor
  · intro n ty hc; rcases Ex.hasCol2 Ex.mergeA_cols hc with ⟨_, rfl⟩ | ⟨_, rfl⟩ <;> rfl
  · intro n ty hc; rcases Ex.hasCol2 Ex.mergeB_cols hc with ⟨_, rfl⟩ | ⟨_, rfl⟩ <;> rfl

/-- The key 5 occurs in both tables. -/
theorem Ex.repeats : SomeRepeat ((mergeKeys Ex.mergeA Ex.mergeB).map (·.colName)) Ex.mergeA Ex.mergeB := by
  have hk : (mergeKeys Ex.mergeA Ex.mergeB).map (·.colName) = [gs! "k"] := by decide +kernel
  rw [hk]
  refine .inl ⟨0, 0, by decide +kernel, by decide +kernel, fun n hn => ?_⟩
  rw [List.mem_singleton.1 hn]
  refine ⟨.int .int 5, .int .int 5, ⟨1, [.f64 0, .int .int 5], ?_, ?_, rfl⟩, ⟨0, [.int .int 5, .str [65]], ?_, ?_, rfl⟩, rfl⟩ <;> decide +kernel

/-- What a merge returned, to look at. -/
def Ex.fresh : Out (MergeResult Unit) → Option (List GoStr × List (List (Cell Unit)))
  | .ok (.fresh m) => some (m.colNames, m.rows)
  | _ => none

-- the hypotheses are met, and the result by hand: keys 9, 7, 5, 0, descending; a missing float64 is NaN
example : ∃ m, (merge (fun _ _ => ()) (insertionSort _) Ex.asciiLower Ex.mergeA Ex.mergeB).2 = .ok (.fresh m) ∧
    IsMerge Ex.asciiLower (mergeKeys Ex.mergeA Ex.mergeB) Ex.mergeA Ex.mergeB m := by
  obtain ⟨k1, k2, o, e, _, _, h, _⟩ := C41_merge (fun _ _ => ()) (insertionSort _) Ex.asciiLower Ex.mergeA Ex.mergeB Ex.mergeInput
  rw [e]; exact h ⟨Ex.repeats, Ex.mergeable⟩
example : Ex.fresh (merge (fun _ _ => ()) (insertionSort _) Ex.asciiLower Ex.mergeA Ex.mergeB).2 =
    some ([gs! "k", gs! "x", gs! "y"],
      [[.int .int 9, .f64 nan64, .str []], [.int .int 7, .f64 7, .str []], [.int .int 5, .f64 0, .str [65]], [.int .int 0, .f64 0, .str []]]) := by
  decide +kernel

-- empty tables
example : (merge (fun _ _ => ()) (insertionSort _) Ex.asciiLower Ex.mergeA newNilTable).2 = .ok .receiver := by decide +kernel
example : (merge (fun _ _ => ()) (insertionSort _) Ex.asciiLower newNilTable Ex.mergeA).2 = .ok .argument := by decide +kernel

/-- **C41 is false of the code without "some key repeats"**: two tables that meet all other conditions and have no key in common cannot
be merged. -/
theorem C41_false : ¬ (∀ (nt : Nat → Nat → Unit) (srt : GoSort (List (Cell Unit))) (lower : GoStr → GoStr) (t1 t2 : Table Unit),
    MergeInput ((mergeKeys t1 t2).map (·.colName)) t1 t2 → AllMergeable t1 → AllMergeable t2 →
      ∃ m, (merge nt srt lower t1 t2).2 = .ok (.fresh m)) := by
  intro h
  have hk : (mergeKeys Ex.mergeA Ex.mergeC).map (·.colName) = [gs! "k"] := by decide +kernel
  have hA : HasColT Ex.mergeA (gs! "k") .int := ⟨1, by rw [Ex.mergeA_cols.1]; rfl, by rw [Ex.mergeA_cols.2]; rfl⟩
  have hC : HasColT Ex.mergeC (gs! "k") .int := ⟨0, by rw [Ex.mergeC_cols.1]; rfl, by rw [Ex.mergeC_cols.2]; rfl⟩
  have hC1 : ∀ n ty, HasColT Ex.mergeC n ty → n = gs! "k" ∧ ty = .int := by
    rintro n ty ⟨i, h1, h2⟩
    rw [Ex.mergeC_cols.1] at h1; rw [Ex.mergeC_cols.2] at h2
    match i, h1, h2 with
    | 0, h1, h2 => cases h1; cases h2; exact ⟨rfl, rfl⟩
    | i + 1, h1, h2 => simp at h1
  obtain ⟨m, hm⟩ := h (fun _ _ => ()) (insertionSort _) Ex.asciiLower Ex.mergeA Ex.mergeC (by
    rw [hk]
    exact {
      wf1 := Ex.mergeA_wf, wf2 := Ex.mergeC_wf, rows1 := by decide +kernel, rows2 := by decide +kernel
      someKey := by decide, distinct := by decide
      key := by intro n hn; rw [List.mem_singleton.1 hn]; exact ⟨.int, hA, hC, rfl⟩
      notNaN1 := by intro n hn; rw [List.mem_singleton.1 hn]; exact Ex.intNotNaN Ex.mergeA_wf hA
      notNaN2 := by intro n hn; rw [List.mem_singleton.1 hn]; exact Ex.intNotNaN Ex.mergeC_wf hC
      shared := by
        intro n ty ty' h1 h2
        obtain ⟨rfl, rfl⟩ := hC1 n ty' h2
        rcases Ex.hasCol2 Ex.mergeA_cols h1 with ⟨e, rfl⟩ | ⟨_, rfl⟩
        · exact absurd e (by decide)
        · rfl
      free1 := by rw [Ex.mergeA_cols.1]; decide
      free2 := by rw [Ex.mergeC_cols.1]; decide }) Ex.mergeable.1 (by intro n ty hc; rw [(hC1 n ty hc).2]; rfl)
  have : Ex.fresh (merge (fun _ _ => ()) (insertionSort _) Ex.asciiLower Ex.mergeA Ex.mergeC).2 = none := by decide +kernel
  rw [hm] at this
  cases this

end Verif
