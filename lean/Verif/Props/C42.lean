import Verif.Props.C41

/-!
# C42: merging two cells prefers information

`Cell.weight` is 0 for NaN, 1 for a zero value and 2 for any other value.
-/

namespace Verif
variable {τ : Type}
open Table

theorem EqVal.symm {a b : Cell τ} (h : a.EqVal b) : b.EqVal a := by
  cases a <;> cases b <;> simp_all [Cell.EqVal, f32Eq, f64Eq]

theorem EqVal.trans {a b c : Cell τ} (h : a.EqVal b) (h' : b.EqVal c) : a.EqVal c := by
  cases a <;> cases b <;> first | (simp only [Cell.EqVal] at h; cases h; done) | (simp only [Cell.EqVal] at h; cases h; exact h') | skip
  all_goals cases c <;> simp_all [Cell.EqVal, f32Eq, f64Eq]

theorem SameKey.common {names : List GoStr} {m t u : Table τ} (hm : WF m) {i r s : Nat} (h1 : SameKey names m i t r) (h2 : SameKey names m i u s) :
    SameKey names t r u s := by
  refine ⟨h1.2.1, h2.2.1, fun n hn => ?_⟩
  obtain ⟨a, b, e1, e2, e3⟩ := h1.2.2 n hn
  obtain ⟨a', b', f1, f2, f3⟩ := h2.2.2 n hn
  rw [At_unique hm f1 e1] at f3
  exact ⟨b, b', e2, f2, EqVal.trans (EqVal.symm e3) f3⟩

/-- No two rows of the table have the same key. -/
def UniqueKeys (names : List GoStr) (t : Table τ) : Prop := ∀ i j, SameKey names t i t j → i = j

theorem merge_isMerge {nt : Nat → Nat → τ} {srt : GoSort (List (Cell τ))} {lower : GoStr → GoStr} {t1 t2 m : Table τ}
    (h : MergeInput ((mergeKeys t1 t2).map (·.colName)) t1 t2) (e : (merge nt srt lower t1 t2).2 = .ok (.fresh m)) :
    IsMerge lower (mergeKeys t1 t2) t1 t2 m ∧ AllMergeable t2 := by
  obtain ⟨k1, k2, o, eo, _, _, h1, h2⟩ := C41_merge nt srt lower t1 t2 h
  rw [eo] at e
  by_cases hs : SomeRepeat ((mergeKeys t1 t2).map (·.colName)) t1 t2 ∧ AllMergeable t1 ∧ AllMergeable t2
  · obtain ⟨m', em, hm⟩ := h1 hs
    rw [em] at e
    cases e; exact ⟨hm, hs.2.2⟩
  · obtain ⟨x, ex⟩ := h2 hs
    rw [ex] at e; cases e

theorem IsMerge.from1 {lower : GoStr → GoStr} {keys : List SortKey} {t1 t2 m : Table τ} (h : IsMerge lower keys t1 t2 m) (w1 : WF t1)
    (u1 : UniqueKeys (keys.map (·.colName)) t1) {i r : Nat} (hk : SameKey (keys.map (·.colName)) m i t1 r) {n : GoStr} {ty : ColType} {a v : Cell τ}
    (ha : At t1 n r a) (hv : Gives (keys.map (·.colName)) t1 m i n ty v) : v = a := by
  obtain ⟨r', hr', hg⟩ := hv
  have := u1 r' r (hr'.common h.wf hk); subst this
  rcases hg with hg | ⟨hg, _⟩
  · exact At_unique w1 hg ha
  · exact absurd (At_bound ha).1 hg

/-- **C42.** A row with a key of both tables (in which keys do not repeat), in a column of both tables: a value other than zero and NaN of
the first table wins, else such a value of the second table; zero wins over NaN; and the merged value is one of the two. -/
theorem C42_both (nt : Nat → Nat → τ) (srt : GoSort (List (Cell τ))) (lower : GoStr → GoStr) (t1 t2 m : Table τ)
    (h : MergeInput ((mergeKeys t1 t2).map (·.colName)) t1 t2) (e : (merge nt srt lower t1 t2).2 = .ok (.fresh m))
    (u1 : UniqueKeys ((mergeKeys t1 t2).map (·.colName)) t1) (u2 : UniqueKeys ((mergeKeys t1 t2).map (·.colName)) t2)
    (i r1 r2 : Nat) (k1 : SameKey ((mergeKeys t1 t2).map (·.colName)) m i t1 r1) (k2 : SameKey ((mergeKeys t1 t2).map (·.colName)) m i t2 r2)
    (n : GoStr) (a b v : Cell τ) (ha : At t1 n r1 a) (hb : At t2 n r2 b) (hv : At m n i v) :
    (v = a ∨ v = b) ∧ (a.weight = 2 → v = a) ∧ (b.weight < a.weight → v = a) ∧ (a.weight < b.weight → v = b) := by
  have hm := (merge_isMerge h e).1
  obtain ⟨ty, hty⟩ := HasColT.ofMem hm.wf (At_bound hv).1
  obtain ⟨c1, c2, c3⟩ := hm.cells n ty i v hty hv
  have g1 : Gives ((mergeKeys t1 t2).map (·.colName)) t1 m i n ty a := ⟨r1, k1, .inl ha⟩
  have g2 : Gives ((mergeKeys t1 t2).map (·.colName)) t2 m i n ty b := ⟨r2, k2, .inl hb⟩
  have from1 : Gives ((mergeKeys t1 t2).map (·.colName)) t1 m i n ty v → v = a := hm.from1 h.wf1 u1 k1 ha
  have from2 : Gives ((mergeKeys t1 t2).map (·.colName)) t2 m i n ty v → v = b := by
    rintro ⟨r', hr', hg⟩
    have := u2 r' r2 (hr'.common hm.wf k2); subst this
    rcases hg with hg | ⟨hg, _⟩
    · exact At_unique h.wf2 hg hb
    · exact absurd (At_bound hb).1 hg
  have hab : v = a ∨ v = b := c1.imp from1 from2
  have wa := c2 a (.inl g1)
  have wb := c2 b (.inr g2)
  refine ⟨hab, fun h2 => from1 (c3 a g1 h2), fun hlt => ?_, fun hlt => ?_⟩
  · rcases hab with e | e
    · exact e
    · rw [e] at wa; omega
  · rcases hab with e | e
    · rw [e] at wb; omega
    · exact e

/-- **C42.** A row with a key of the first table only: its values, and in the other columns NaN or the zero value. -/
theorem C42_first_only (nt : Nat → Nat → τ) (srt : GoSort (List (Cell τ))) (lower : GoStr → GoStr) (t1 t2 m : Table τ)
    (h : MergeInput ((mergeKeys t1 t2).map (·.colName)) t1 t2) (e : (merge nt srt lower t1 t2).2 = .ok (.fresh m))
    (u1 : UniqueKeys ((mergeKeys t1 t2).map (·.colName)) t1) (i r1 : Nat) (k1 : SameKey ((mergeKeys t1 t2).map (·.colName)) m i t1 r1)
    (hno : ∀ r2, ¬ SameKey ((mergeKeys t1 t2).map (·.colName)) m i t2 r2) (n : GoStr) (v : Cell τ) (hv : At m n i v) :
    At t1 n r1 v ∨ (n ∉ t1.colNames ∧ ∃ ty, HasColT t2 n ty ∧ v.IsMissing ty) := by
  have hm := (merge_isMerge h e).1
  obtain ⟨ty, hty⟩ := HasColT.ofMem hm.wf (At_bound hv).1
  rcases (hm.cells n ty i v hty hv).1 with ⟨r, hr, hg⟩ | ⟨r, hr, _⟩
  · have := u1 r r1 (hr.common hm.wf k1); subst this
    rcases hg with hg | ⟨hg, hmiss⟩
    · exact .inl hg
    · refine .inr ⟨hg, ty, ?_, hmiss⟩
      rcases (hm.types n ty).1 hty with q | q
      · exact absurd q.mem hg
      · exact q
  · exact absurd hr (hno r)

/-- **C42.** A row with a key of the second table only. -/
theorem C42_second_only (nt : Nat → Nat → τ) (srt : GoSort (List (Cell τ))) (lower : GoStr → GoStr) (t1 t2 m : Table τ)
    (h : MergeInput ((mergeKeys t1 t2).map (·.colName)) t1 t2) (e : (merge nt srt lower t1 t2).2 = .ok (.fresh m))
    (u2 : UniqueKeys ((mergeKeys t1 t2).map (·.colName)) t2) (i r2 : Nat) (k2 : SameKey ((mergeKeys t1 t2).map (·.colName)) m i t2 r2)
    (hno : ∀ r1, ¬ SameKey ((mergeKeys t1 t2).map (·.colName)) m i t1 r1) (n : GoStr) (v : Cell τ) (hv : At m n i v) :
    At t2 n r2 v ∨ (n ∉ t2.colNames ∧ ∃ ty, HasColT t1 n ty ∧ v.IsMissing ty) := by
  have hm := (merge_isMerge h e).1
  obtain ⟨ty, hty⟩ := HasColT.ofMem hm.wf (At_bound hv).1
  rcases (hm.cells n ty i v hty hv).1 with ⟨r, hr, _⟩ | ⟨r, hr, hg⟩
  · exact absurd hr (hno r)
  · have := u2 r r2 (hr.common hm.wf k2); subst this
    rcases hg with hg | ⟨hg, hmiss⟩
    · exact .inl hg
    · refine .inr ⟨hg, ty, ?_, hmiss⟩
      rcases (hm.types n ty).1 hty with q | q
      · exact q
      · exact absurd q.mem hg

/-- **C42.** A row with a key of both tables, in a column of the first table only: a value other than zero and NaN is kept; otherwise the
cell is zero or NaN and tells no less. -/
theorem C42_column_of_first (nt : Nat → Nat → τ) (srt : GoSort (List (Cell τ))) (lower : GoStr → GoStr) (t1 t2 m : Table τ)
    (h : MergeInput ((mergeKeys t1 t2).map (·.colName)) t1 t2) (e : (merge nt srt lower t1 t2).2 = .ok (.fresh m))
    (u1 : UniqueKeys ((mergeKeys t1 t2).map (·.colName)) t1)
    (i r1 : Nat) (k1 : SameKey ((mergeKeys t1 t2).map (·.colName)) m i t1 r1) (n : GoStr) (hn : n ∉ t2.colNames) (ty : ColType) (hty : HasColT t1 n ty)
    (a v : Cell τ) (ha : At t1 n r1 a) (hv : At m n i v) : (v = a ∨ v.IsMissing ty) ∧ a.weight ≤ v.weight ∧ (a.weight = 2 → v = a) := by
  have hm := (merge_isMerge h e).1
  obtain ⟨c1, c2, c3⟩ := hm.cells n ty i v ((hm.types n ty).2 (.inl hty)) hv
  have g1 : Gives ((mergeKeys t1 t2).map (·.colName)) t1 m i n ty a := ⟨r1, k1, .inl ha⟩
  have from1 := fun hg => hm.from1 h.wf1 u1 k1 ha (ty := ty) (v := v) hg
  refine ⟨?_, c2 a (.inl g1), fun h2 => from1 (c3 a g1 h2)⟩
  rcases c1 with g | ⟨r, hr, g⟩
  · exact .inl (from1 g)
  · rcases g with g | ⟨_, g⟩
    · exact absurd (At_bound g).1 hn
    · exact .inr g

/-- **C42.** A row with a key of both tables, in a column of the second table only. -/
theorem C42_column_of_second (nt : Nat → Nat → τ) (srt : GoSort (List (Cell τ))) (lower : GoStr → GoStr) (t1 t2 m : Table τ)
    (h : MergeInput ((mergeKeys t1 t2).map (·.colName)) t1 t2) (e : (merge nt srt lower t1 t2).2 = .ok (.fresh m))
    (u2 : UniqueKeys ((mergeKeys t1 t2).map (·.colName)) t2)
    (i r2 : Nat) (k2 : SameKey ((mergeKeys t1 t2).map (·.colName)) m i t2 r2) (n : GoStr) (hn : n ∉ t1.colNames) (ty : ColType) (hty : HasColT t2 n ty)
    (b v : Cell τ) (hb : At t2 n r2 b) (hv : At m n i v) : (v = b ∨ v.IsMissing ty) ∧ b.weight ≤ v.weight ∧ (b.weight = 2 → v = b) := by
  obtain ⟨hm, hall⟩ := merge_isMerge h e
  obtain ⟨c1, c2, c3⟩ := hm.cells n ty i v ((hm.types n ty).2 (.inr hty)) hv
  have g2 : Gives ((mergeKeys t1 t2).map (·.colName)) t2 m i n ty b := ⟨r2, k2, .inl hb⟩
  have hor : v = b ∨ v.IsMissing ty := by
    rcases c1 with ⟨r, hr, g⟩ | ⟨r, hr, g⟩
    · rcases g with g | ⟨_, g⟩
      · exact absurd (At_bound g).1 hn
      · exact .inr g
    · have := u2 r r2 (hr.common hm.wf k2); subst this
      rcases g with g | ⟨g, _⟩
      · exact .inl (At_unique h.wf2 g hb)
      · exact absurd (At_bound hb).1 g
  have hw := c2 b (.inr g2)
  refine ⟨hor, hw, fun h2 => ?_⟩
  rcases hor with q | q
  · exact q
  · have := (missing_weight (hall n ty hty) q q).2
    rw [h2] at hw
    have hle : v.weight ≤ 2 := by cases v <;> simp only [Cell.weight] <;> (repeat' split) <;> omega
    omega

/-! ## Examples -/

theorem Ex.uniqueKeys {t : Table Unit} (hw : WF t) {n : GoStr} (ks : List (Cell Unit)) (hlen : t.rows.length = ks.length)
    (hks : ∀ (i : Nat) c, ks[i]? = some c → At t n i c) (hd : ∀ (i j : Nat) (a b : Cell Unit), ks[i]? = some a → ks[j]? = some b → a.EqVal b → i = j) : UniqueKeys [n] t := by
  rintro i j ⟨hi, hj, hc⟩
  obtain ⟨a, b, h1, h2, h3⟩ := hc n (List.mem_singleton.2 rfl)
  have ei := hks i _ (List.getElem?_eq_getElem (hlen ▸ hi))
  have ej := hks j _ (List.getElem?_eq_getElem (hlen ▸ hj))
  rw [At_unique hw h1 ei, At_unique hw h2 ej] at h3
  exact hd i j _ _ (List.getElem?_eq_getElem (hlen ▸ hi)) (List.getElem?_eq_getElem (hlen ▸ hj)) h3

/-- Columns `x` (float64) and `k` (int): (9 as bits, 5), (NaN, 7). -/
def Ex.mergeD : Table Unit := Op.run newNilTable
  [.setName (gs! "d"), .appendCol (fun _ _ => ()) (gs! "x") (gs! "float64"), .appendCol (fun _ _ => ()) (gs! "k") (gs! "int"),
   .appendRows (fun _ _ => ()) 2, .setVal (gs! "k") 0 (.int .int 5), .setVal (gs! "x") 0 (.f64 9), .setVal (gs! "k") 1 (.int .int 7),
   .setVal (gs! "x") 1 (.f64 nan64)]

theorem Ex.mergeD_wf : WF Ex.mergeD := C01_history _ WF.newNilTable _ (by simp [Op.ArgsOK, Cell.Real, IntKind.lo, IntKind.hi])
theorem Ex.mergeD_cols : Ex.mergeD.colNames = [gs! "x", gs! "k"] ∧ Ex.mergeD.colTypes = [.float64, .int] := by decide +kernel
theorem Ex.mergeA_rows : Ex.mergeA.rows = [[.f64 0, .int .int 5], [.f64 7, .int .int 7], [.f64 0, .int .int 0]] := by decide +kernel
theorem Ex.mergeD_rows : Ex.mergeD.rows = [[.f64 9, .int .int 5], [.f64 nan64, .int .int 7]] := by decide +kernel
theorem Ex.keysAD : (mergeKeys Ex.mergeA Ex.mergeD).map (·.colName) = [gs! "k"] := by decide +kernel

theorem Ex.mergeInputAD : MergeInput ((mergeKeys Ex.mergeA Ex.mergeD).map (·.colName)) Ex.mergeA Ex.mergeD := by
  rw [Ex.keysAD]
  have hA : HasColT Ex.mergeA (gs! "k") .int := ⟨1, by rw [Ex.mergeA_cols.1]; rfl, by rw [Ex.mergeA_cols.2]; rfl⟩
  have hD : HasColT Ex.mergeD (gs! "k") .int := ⟨1, by rw [Ex.mergeD_cols.1]; rfl, by rw [Ex.mergeD_cols.2]; rfl⟩
  exact {
    wf1 := Ex.mergeA_wf, wf2 := Ex.mergeD_wf, rows1 := by decide +kernel, rows2 := by decide +kernel
    someKey := by decide, distinct := by decide
    key := by intro n hn; rw [List.mem_singleton.1 hn]; exact ⟨.int, hA, hD, rfl⟩
    notNaN1 := by intro n hn; rw [List.mem_singleton.1 hn]; exact Ex.intNotNaN Ex.mergeA_wf hA
    notNaN2 := by intro n hn; rw [List.mem_singleton.1 hn]; exact Ex.intNotNaN Ex.mergeD_wf hD
    shared := by
      intro n ty ty' h1 h2
      rcases Ex.hasCol2 Ex.mergeA_cols h1 with ⟨rfl, rfl⟩ | ⟨rfl, rfl⟩ <;> rcases Ex.hasCol2 Ex.mergeD_cols h2 with ⟨e, rfl⟩ | ⟨e, rfl⟩
      · rfl
      · exact absurd e (by decide)
      · exact absurd e (by decide)
      · rfl
    free1 := by rw [Ex.mergeA_cols.1]; decide
    free2 := by rw [Ex.mergeD_cols.1]; decide }

theorem Ex.uniqueA : UniqueKeys [gs! "k"] Ex.mergeA := by
  refine Ex.uniqueKeys Ex.mergeA_wf [.int .int 5, .int .int 7, .int .int 0] (by decide +kernel) ?_ ?_
  · intro i c hc
    match i, hc with
    | 0, hc => cases hc; exact ⟨1, _, by rw [Ex.mergeA_cols.1]; rfl, by rw [Ex.mergeA_rows]; rfl, rfl⟩
    | 1, hc => cases hc; exact ⟨1, _, by rw [Ex.mergeA_cols.1]; rfl, by rw [Ex.mergeA_rows]; rfl, rfl⟩
    | 2, hc => cases hc; exact ⟨1, _, by rw [Ex.mergeA_cols.1]; rfl, by rw [Ex.mergeA_rows]; rfl, rfl⟩
    | i + 3, hc => simp at hc
  · intro i j a b hi hj e
    match i, j, hi, hj with
    | 0, 0, _, _ | 1, 1, _, _ | 2, 2, _, _ => rfl
    | 0, 1, hi, hj | 0, 2, hi, hj | 1, 0, hi, hj | 1, 2, hi, hj | 2, 0, hi, hj | 2, 1, hi, hj => cases hi; cases hj; cases e
    | i + 3, _, hi, _ => simp at hi
    | _, j + 3, _, hj => simp at hj

theorem Ex.uniqueD : UniqueKeys [gs! "k"] Ex.mergeD := by
  refine Ex.uniqueKeys Ex.mergeD_wf [.int .int 5, .int .int 7] (by decide +kernel) ?_ ?_
  · intro i c hc
    match i, hc with
    | 0, hc => cases hc; exact ⟨1, _, by rw [Ex.mergeD_cols.1]; rfl, by rw [Ex.mergeD_rows]; rfl, rfl⟩
    | 1, hc => cases hc; exact ⟨1, _, by rw [Ex.mergeD_cols.1]; rfl, by rw [Ex.mergeD_rows]; rfl, rfl⟩
    | i + 2, hc => simp at hc
  · intro i j a b hi hj e
    match i, j, hi, hj with
    | 0, 0, _, _ | 1, 1, _, _ => rfl
    | 0, 1, hi, hj | 1, 0, hi, hj => cases hi; cases hj; cases e
    | i + 2, _, hi, _ => simp at hi
    | _, j + 2, _, hj => simp at hj

theorem Ex.mergeAD : Ex.fresh (merge (fun _ _ => ()) (insertionSort _) Ex.asciiLower Ex.mergeA Ex.mergeD).2 =
    some ([gs! "k", gs! "x"], [[.int .int 7, .f64 7], [.int .int 5, .f64 9], [.int .int 0, .f64 0]]) := by decide +kernel

-- all hypotheses of `C42_both` hold of row 1 (key 5) of the merged table, where 9 of the second table wins over 0 of the first
example : ∃ m v, (merge (fun _ _ => ()) (insertionSort _) Ex.asciiLower Ex.mergeA Ex.mergeD).2 = .ok (.fresh m) ∧ At m (gs! "x") 1 v ∧ v = .f64 9 := by
  have e := Ex.mergeAD
  cases em : (merge (fun _ _ => ()) (insertionSort _) Ex.asciiLower Ex.mergeA Ex.mergeD).2 with
  | err x => rw [em] at e; cases e
  | panic => rw [em] at e; cases e
  | ok o =>
    cases o with
    | receiver => rw [em] at e; cases e
    | argument => rw [em] at e; cases e
    | fresh m =>
      rw [em] at e
      simp only [Ex.fresh, Option.some.injEq, Prod.mk.injEq] at e
      have hx : At m (gs! "x") 1 (.f64 9) := ⟨1, _, by rw [e.1]; rfl, by rw [e.2]; rfl, rfl⟩
      have hk : At m (gs! "k") 1 (.int .int 5) := ⟨0, _, by rw [e.1]; rfl, by rw [e.2]; rfl, rfl⟩
      have hA : At Ex.mergeA (gs! "k") 0 (.int .int 5) := ⟨1, _, by rw [Ex.mergeA_cols.1]; rfl, by rw [Ex.mergeA_rows]; rfl, rfl⟩
      have hD : At Ex.mergeD (gs! "k") 0 (.int .int 5) := ⟨1, _, by rw [Ex.mergeD_cols.1]; rfl, by rw [Ex.mergeD_rows]; rfl, rfl⟩
      have hAx : At Ex.mergeA (gs! "x") 0 (.f64 0) := ⟨0, _, by rw [Ex.mergeA_cols.1]; rfl, by rw [Ex.mergeA_rows]; rfl, rfl⟩
      have hDx : At Ex.mergeD (gs! "x") 0 (.f64 9) := ⟨0, _, by rw [Ex.mergeD_cols.1]; rfl, by rw [Ex.mergeD_rows]; rfl, rfl⟩
      refine ⟨m, _, rfl, hx, ?_⟩
      refine (C42_both _ _ _ Ex.mergeA Ex.mergeD m Ex.mergeInputAD em (by rw [Ex.keysAD]; exact Ex.uniqueA) (by rw [Ex.keysAD]; exact Ex.uniqueD)
        1 0 0 ?_ ?_ _ _ _ _ hAx hDx hx).2.2.2 (by decide +kernel) <;> rw [Ex.keysAD]
      · exact ⟨by rw [e.2]; decide, by decide +kernel, fun n hn => by rw [List.mem_singleton.1 hn]; exact ⟨_, _, hk, hA, rfl⟩⟩
      · exact ⟨by rw [e.2]; decide, by decide +kernel, fun n hn => by rw [List.mem_singleton.1 hn]; exact ⟨_, _, hk, hD, rfl⟩⟩

end Verif
