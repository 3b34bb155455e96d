import Verif.Lemmas.Equals
import Verif.Lemmas.Over
import Verif.Lemmas.MergeLoop
import Verif.Props.C06
import Verif.Props.C07
import Verif.Props.C23
import Verif.Props.C24
import Verif.Props.C30

/-! The first part of `Merge`: all rows of both tables in one table. -/

namespace Verif

variable {τ : Type}

open Table

theorem orDrop_ok {r : Table τ × Out Unit} (h : r.2 = .ok ()) : orDrop r = .ok r.1 := by
  obtain ⟨t, o⟩ := r
  simp only at h
  subst h; rfl

theorem orDrop_eq {r : Table τ × Out Unit} {t : Table τ} (h : r = (t, .ok ())) : orDrop r = .ok t := by
  rw [h]; rfl

/-- The columns of the merged table. -/
def mergedCols (names : List GoStr) (t1 t2 : Table τ) : List GoStr :=
  names ++ (t1.colNames ++ t2.colNames.filter (fun n => n ∉ t1.colNames)).filter (fun n => n ∉ names)

/-- The direction and the name of each key. -/
def dirs (ks : List SortKey) : List (GoStr × Bool) := ks.map (fun k => (k.colName, k.reverse))

theorem dirs_names (ks : List SortKey) : ks.map (·.colName) = (dirs ks).map Prod.fst := by
  simp [dirs]

/-- What stands in `m` after the first part. -/
structure Collected (t1 t2 m : Table τ) : Prop where
  wf : WF m
  name : m.name = gs! "Merged"
  notNil : m.isNilTable = false
  cols : m.colNames = mergedCols (t1.sortKeys.map (·.colName)) t1 t2 ++ [tableNumberColName]
  types : ∀ n ty, HasColT m n ty ↔ HasColT t1 n ty ∨ HasColT t2 n ty ∨ (n = tableNumberColName ∧ ty = .int)
  keys : dirs m.sortKeys = dirs t1.sortKeys
  live : KeysLive m
  len : m.rows.length = t1.rows.length + t2.rows.length
  one : ∀ n r v, n ∈ t1.colNames → r < t1.rows.length → At m n r v → At t1 n r v
  oneMissing : ∀ n ty r v, n ∉ t1.colNames → HasColT t2 n ty → r < t1.rows.length → At m n r v → v.IsMissing ty
  oneNumber : ∀ r v, r < t1.rows.length → At m tableNumberColName r v → v = .int .int 1
  two : ∀ n r v, n ∈ t2.colNames → t1.rows.length ≤ r → At m n r v → At t2 n (r - t1.rows.length) v
  twoMissing : ∀ n ty r v, n ∉ t2.colNames → HasColT t1 n ty → t1.rows.length ≤ r → At m n r v → v.IsMissing ty
  twoNumber : ∀ r v, t1.rows.length ≤ r → At m tableNumberColName r v → v = .int .int 2

theorem HasColT.ofMem {t : Table τ} (h : WF t) {n : GoStr} (hn : n ∈ t.colNames) : ∃ ty, HasColT t n ty := by
  obtain ⟨i, hi⟩ := List.getElem?_of_mem hn
  obtain ⟨ty, hty⟩ := h.type_of_name hi
  exact ⟨ty, i, hi, hty⟩

/-- What `mergeCollect` needs. -/
structure CollectInput (t1 t2 : Table τ) : Prop where
  wf1 : WF t1
  wf2 : WF t2
  notNil1 : t1.isNilTable = false
  notNil2 : t2.isNilTable = false
  shared : SharedColsAgree t1 t2
  someKey : t1.sortKeys ≠ []
  distinct : (t1.sortKeys.map (·.colName)).Nodup
  key : ∀ k ∈ t1.sortKeys, SortableCol t1 k.colName
  free1 : tableNumberColName ∉ t1.colNames
  free2 : tableNumberColName ∉ t2.colNames

theorem consistent_of_nodup {ks : List SortKey} (h : (ks.map (·.colName)).Nodup) : ConsistentDirections ks := by
  intro k hk k' hk' e
  have : k = k' := by
    obtain ⟨i, hi⟩ := List.getElem?_of_mem hk
    obtain ⟨j, hj⟩ := List.getElem?_of_mem hk'
    have h1 : (ks.map (·.colName))[i]? = some k.colName := by simp [hi]
    have h2 : (ks.map (·.colName))[j]? = some k.colName := by simp [hj, e]
    have := (List.getElem?_inj (List.getElem?_eq_some_iff.1 h1).1 h).1 (h1.trans h2.symm)
    subst this
    rw [hi] at hj; exact Option.some.inj hj
  rw [this]

theorem mergeCollect_ok (nt : Nat → Nat → τ) {t1 t2 : Table τ} (h : CollectInput t1 t2) : ∃ m, mergeCollect nt t1 t2 = .ok m ∧ Collected t1 t2 m := by
  -- columns of the first table
  obtain ⟨m0, e0, w0, n0, nn0, c0, k0, r0⟩ : ∃ m0 : Table τ, newTable (gs! "Merged") = .ok m0 ∧ WF m0 ∧ m0.name = gs! "Merged" ∧
      m0.isNilTable = false ∧ m0.colNames = [] ∧ m0.sortKeys = [] ∧ m0.rows = [] :=
    ⟨_, newTable_eq (by decide), WF.newTable (newTable_eq (by decide)), rfl, rfl, rfl, rfl, rfl⟩
  have a0 : ∀ n ty, ¬ HasColT m0 n ty := by
    rintro n ty ⟨i, hi, _⟩; rw [c0] at hi; simp at hi
  obtain ⟨e1, d1, w1⟩ := (C30_appendColsFromTable nt m0 t1 w0 h.wf1).1 ⟨nn0, h.notNil1, fun n ty ty' h1 _ => absurd h1 (a0 n ty)⟩
  have E1 := orDrop_ok e1
  generalize (m0.appendColsFromTable nt t1).1 = m1 at d1 w1 E1
  obtain ⟨b1, b2, _, _, b5, b6, b7, _, b9⟩ := d1
  have T1 : ∀ n ty, HasColT m1 n ty ↔ HasColT t1 n ty := by
    intro n ty
    rw [b2, c0]
    simp [a0]
  have C1 : m1.colNames = t1.colNames := by rw [b1, c0]; simp
  -- columns of the second table
  obtain ⟨e2, d2, w2⟩ := (C30_appendColsFromTable nt m1 t2 w1 h.wf2).1 ⟨b9.trans nn0, h.notNil2, fun n ty ty' h1 h2 =>
    h.shared n ty ty' ((T1 n ty).1 h1) h2⟩
  have E2 := orDrop_ok e2
  generalize (m1.appendColsFromTable nt t2).1 = m2 at d2 w2 E2
  obtain ⟨f1, f2, _, _, f5, f6, f7, _, f9⟩ := d2
  have T2 : ∀ n ty, HasColT m2 n ty ↔ HasColT t1 n ty ∨ HasColT t2 n ty := by
    intro n ty
    rw [f2, T1, C1]
    constructor
    · rintro (h1 | h1)
      · exact .inl h1
      · exact .inr h1.2
    · rintro (h1 | h1)
      · exact .inl h1
      · by_cases hm : n ∈ t1.colNames
        · obtain ⟨ty', h2⟩ := HasColT.ofMem h.wf1 hm
          rw [← h.shared n ty' ty h2 h1]; exact .inl h2
        · exact .inr ⟨hm, h1⟩
  have C2 : m2.colNames = t1.colNames ++ t2.colNames.filter (fun n => n ∉ t1.colNames) := by rw [f1, C1]
  have R2 : m2.rows = [] := by
    have : m2.rows.length = 0 := by rw [f5, b5, r0]; rfl
    exact List.length_eq_zero_iff.1 this
  -- keys
  obtain ⟨keys, e3, g1, g2⟩ := C23_setSortKeysFromTable m2 t1 w2 h.someKey
    (by
      intro k hk
      obtain ⟨ty, h1, h2⟩ := h.key k hk
      exact ⟨ty, (T2 _ _).2 (.inl h1), h2⟩)
    (consistent_of_nodup h.distinct)
  have E3 := orDrop_eq e3
  have w3 : WF { m2 with sortKeys := keys } := by have := w2.setSortKeysFromTable t1; rw [e3] at this; exact this
  have hnames : keys.map (·.colName) = t1.sortKeys.map (·.colName) := by
    have : dirs keys = dirs t1.sortKeys := g1
    rw [dirs_names, this, ← dirs_names]
  -- order
  obtain ⟨e4, o1, o2, o3, o4, o5, o6, w4⟩ := C24_partial { m2 with sortKeys := keys } w3
    ⟨by simp only [hnames]; exact h.distinct, fun k hk => (g2 k hk).mem⟩
  have nn4 : ({ m2 with sortKeys := keys } : Table τ).orderColsBySortKeys.1.isNilTable = false := by
    refine Bool.eq_false_iff.2 fun hcon => ?_
    have := (w4.nilEmpty hcon).1
    rw [o1] at this
    simp only [List.append_eq_nil_iff, hnames, List.map_eq_nil_iff] at this
    exact h.someKey this.1
  have E4 := orDrop_ok e4
  generalize ({ m2 with sortKeys := keys } : Table τ).orderColsBySortKeys.1 = m4 at o1 o2 o3 o4 o5 o6 w4 E4 nn4
  simp only at o1 o4 o5 o6
  have C4 : m4.colNames = mergedCols (t1.sortKeys.map (·.colName)) t1 t2 := by
    rw [o1, hnames, C2, mergedCols]
  have T4 : ∀ n ty, HasColT m4 n ty ↔ HasColT t1 n ty ∨ HasColT t2 n ty := by
    intro n ty; rw [o3]; exact T2 n ty
  -- the column for the table number
  have hfree : tableNumberColName ∉ m4.colNames := by
    intro hm
    obtain ⟨ty, h1⟩ := HasColT.ofMem w4 hm
    rcases (T4 _ _).1 h1 with h2 | h2
    · exact h.free1 h2.mem
    · exact h.free2 h2.mem
  obtain ⟨e5, z5, w5⟩ := (C07_appendCol nt m4 w4 tableNumberColName (gs! "int")).1 .int nn4 (by decide) hfree (by decide)
  have E5 := orDrop_ok e5
  generalize (m4.appendCol nt tableNumberColName (gs! "int")).1 = m5 at z5 w5 E5
  have T5' := hasColT_zeroColAdded w4 z5
  have T5 : ∀ n ty, HasColT m5 n ty ↔ HasColT t1 n ty ∨ HasColT t2 n ty ∨ (n = tableNumberColName ∧ ty = .int) := by
    intro n ty; rw [T5', T4, or_assoc]
  obtain ⟨y1, y2, y3, _, _, y6, y7, _, y9⟩ := z5
  -- the rows
  obtain ⟨e6, z6, w6⟩ := (C06_appendRows nt m5 w5 ((t1.rowCount + t2.rowCount : Nat) : Int)).1 ⟨y9.trans nn4, by omega⟩
  have E6 := orDrop_ok e6
  generalize (m5.appendRows nt ((t1.rowCount + t2.rowCount : Nat) : Int)).1 = m6 at z6 w6 E6
  obtain ⟨hd6, l6, _, q6⟩ := z6
  have L6 : m6.rows.length = t1.rows.length + t2.rows.length := by
    rw [l6, y3, o4, R2, Int.toNat_natCast]
    simp only [rowCount, List.length_nil]; omega
  have L5 : m5.rows.length = 0 := by rw [y3, o4, R2]; rfl
  have T6 : ∀ n ty, HasColT m6 n ty ↔ HasColT t1 n ty ∨ HasColT t2 n ty ∨ (n = tableNumberColName ∧ ty = .int) := by
    intro n ty
    rw [← T5]
    simp only [HasColT, hd6.2.1, hd6.2.2.1]
  have Z6 : ∀ n ty r v, HasColT m6 n ty → At m6 n r v → v.IsZero ty := by
    intro n ty r v hty hv
    have hr := (At_bound hv).2
    obtain ⟨c, h1, h2⟩ := q6 r (by omega) (by omega) n ty ((T5 n ty).2 ((T6 n ty).1 hty))
    rw [At_unique w6 hv h1]; exact h2
  -- NaN
  obtain ⟨m7, e7, v7⟩ := setAllNaN_over w6
  have E7 := orDrop_eq e7
  have T7 : ∀ n ty, HasColT m7 n ty ↔ HasColT m6 n ty := by
    intro n ty; simp only [HasColT, v7.header.2.1, v7.header.2.2.1]
  have Z7 : ∀ n ty r v, HasColT m6 n ty → At m7 n r v → v.IsMissing ty := by
    intro n ty r v hty hv
    by_cases hf : HasColT m6 n .float32 ∨ HasColT m6 n .float64
    · rcases v7.new n r v hf hv with ⟨h1, rfl⟩ | ⟨h1, rfl⟩
      · rw [HasColT.unique w6 hty h1]; exact ⟨trivial, by show isNaN32 nan32 = true; decide⟩
      · rw [HasColT.unique w6 hty h1]; exact ⟨trivial, by show isNaN64 nan64 = true; decide⟩
    · have := Z6 n ty r v hty ((v7.old n r v hf).1 hv)
      cases ty with
      | float32 => exact absurd (.inl hty) hf
      | float64 => exact absurd (.inr hty) hf
      | _ => exact this
  -- the rows of the first table
  obtain ⟨m8, e8, v8⟩ := copyTableCells_over h.wf1 v7.wf (begin := 0) (by rw [v7.len, L6]; omega)
    (fun n ty h1 => (T7 n ty).2 ((T6 n ty).2 (.inl h1)))
  have E8 := orDrop_eq e8
  have hd8 := v7.header.trans v8.header
  obtain ⟨c, hc1, hc2⟩ := (T6 tableNumberColName .int).2 (.inr (.inr ⟨rfl, rfl⟩))
  obtain ⟨m9, e9, v9⟩ := setTableNumber_over v8.wf (c := c) (first := 0) (howMany := t1.rowCount) (number := 1)
    (by rw [hd8.2.1]; exact hc1) (by rw [hd8.2.2.1]; exact hc2) (by simp [Cell.HasType])
    (by rw [v8.len, v7.len, L6]; simp only [rowCount]; omega)
  have E9 := orDrop_eq e9
  have hd9 := hd8.trans v9.header
  have L9 : m9.rows.length = t1.rows.length + t2.rows.length := by rw [v9.len, v8.len, v7.len, L6]
  -- the rows of the second table
  obtain ⟨m10, e10, v10⟩ := copyTableCells_over h.wf2 v9.wf (begin := t1.rowCount) (by rw [L9]; simp only [rowCount]; omega)
    (by
      intro n ty h1
      have := (T6 n ty).2 (.inr (.inl h1))
      simp only [HasColT, hd9.2.1, hd9.2.2.1]; exact this)
  have E10 := orDrop_eq e10
  have hd10 := hd9.trans v10.header
  have L10 : m10.rows.length = t1.rows.length + t2.rows.length := v10.len.trans L9
  obtain ⟨m, e11, v11⟩ := setTableNumber_over v10.wf (c := c) (first := t1.rowCount) (howMany := m10.rowCount - t1.rowCount) (number := 2)
    (by rw [hd10.2.1]; exact hc1) (by rw [hd10.2.2.1]; exact hc2) (by simp [Cell.HasType])
    (by simp only [rowCount]; omega)
  have E11 := orDrop_eq e11
  have hd11 := hd10.trans v11.header
  have hdm := hd6.trans hd11
  refine ⟨m, ?_, ?_⟩
  · simp only [mergeCollect, e0, E1, E2, E3, E4, E5, E6, E7, E8, E9, E10, E11, Out.bind]
  · have Tm : ∀ n ty, HasColT m n ty ↔ HasColT t1 n ty ∨ HasColT t2 n ty ∨ (n = tableNumberColName ∧ ty = .int) := by
      intro n ty
      rw [← T6]
      simp only [HasColT, hd11.2.1, hd11.2.2.1]
    have S11 : ∀ n r v, n ≠ tableNumberColName → (At m n r v ↔ At m10 n r v) := fun n r v hn => v11.old n r v fun h1 => hn h1.1
    have S9 : ∀ n r v, n ≠ tableNumberColName → (At m9 n r v ↔ At m8 n r v) := fun n r v hn => v9.old n r v fun h1 => hn h1.1
    have hne1 : ∀ n, n ∈ t1.colNames → n ≠ tableNumberColName := by rintro n hn rfl; exact h.free1 hn
    have hne2 : ∀ n, n ∈ t2.colNames → n ≠ tableNumberColName := by rintro n hn rfl; exact h.free2 hn
    have hlow : ∀ n r v, n ≠ tableNumberColName → r < t1.rows.length → At m n r v → At m8 n r v := by
      intro n r v hn hr hv
      rw [S11 n r v hn, v10.old n r v (by rintro ⟨_, h1, _⟩; simp only [rowCount] at h1; omega), S9 n r v hn] at hv
      exact hv
    have hhigh : ∀ n r v, n ≠ tableNumberColName → t1.rows.length ≤ r → n ∉ t2.colNames → At m n r v → At m7 n r v := by
      intro n r v hn hr h2 hv
      rw [S11 n r v hn, v10.old n r v (fun h3 => h2 h3.1), S9 n r v hn, v8.old n r v (by rintro ⟨_, h1, h3⟩; omega)] at hv
      exact hv
    exact {
      wf := v11.wf
      name := by rw [hdm.1, y6, o6, f6, b6, n0]
      notNil := by rw [hdm.2.2.2.2.2.2.1, y9, nn4]
      cols := by rw [hdm.2.1, y1, C4]
      types := Tm
      keys := by
        rw [hdm.2.2.2.2.1, y7, o5]
        exact g1
      live := by
        intro k hk
        rw [hdm.2.2.2.2.1, y7, o5] at hk
        have := g2 k hk
        rw [Tm, ← or_assoc]
        exact .inl ((T2 _ _).1 this)
      len := v11.len.trans L10
      one := by
        intro n r v hn hr hv
        have := v8.new n r v ⟨hn, by omega, by omega⟩ (hlow n r v (hne1 n hn) hr hv)
        simpa using this
      oneMissing := by
        intro n ty r v hn hty hr hv
        have h1 := hlow n r v (hne2 n hty.mem) hr hv
        rw [v8.old n r v (fun h3 => hn h3.1)] at h1
        exact Z7 n ty r v ((T6 n ty).2 (.inr (.inl hty))) h1
      oneNumber := by
        intro r v hr hv
        rw [v11.old _ r v (by rintro ⟨_, h1, _⟩; simp only [rowCount] at h1; omega), v10.old _ r v (fun h3 => h.free2 h3.1)] at hv
        exact v9.new _ r v ⟨rfl, by omega, by simp only [rowCount]; omega⟩ hv
      two := by
        intro n r v hn hr hv
        have hlt := (At_bound hv).2
        have : m.rows.length = t1.rows.length + t2.rows.length := v11.len.trans L10
        rw [S11 n r v (hne2 n hn)] at hv
        exact v10.new n r v ⟨hn, hr, by simp only [rowCount]; omega⟩ hv
      twoMissing := by
        intro n ty r v hn hty hr hv
        exact Z7 n ty r v ((T6 n ty).2 (.inl hty)) (hhigh n r v (hne1 n hty.mem) hr hn hv)
      twoNumber := by
        intro r v hr hv
        have hlt := (At_bound hv).2
        have : m.rows.length = t1.rows.length + t2.rows.length := v11.len.trans L10
        exact v11.new _ r v ⟨rfl, hr, by simp only [rowCount]; omega⟩ hv }

end Verif
