import Verif.Props.C29
import Verif.Props.C20

/-!
# C28 NewTableFromRows extracts exactly the requested rows
-/

namespace Verif
open Table

variable {τ : Type}

theorem colTypes_eq {a b : Table τ} (ha : WF a) (hb : WF b) (hn : a.colNames = b.colNames)
    (ht : ∀ n ty, HasColT a n ty → HasColT b n ty) : a.colTypes = b.colTypes := by
  apply List.ext_getElem?
  intro i
  by_cases hi : i < a.colNames.length
  · have h1 : a.colNames[i]? = some a.colNames[i] := List.getElem?_eq_getElem hi
    obtain ⟨ty, h2⟩ := ha.type_of_name h1
    obtain ⟨j, h3, h4⟩ := ht _ ty ⟨i, h1, h2⟩
    have h1' : b.colNames[i]? = some a.colNames[i] := by rw [← hn]; exact h1
    have := hb.map_unique h1' h3
    subst this
    rw [h2, h4]
  · rw [List.getElem?_eq_none (by rw [ha.typesLen]; omega), List.getElem?_eq_none (by rw [hb.typesLen, ← hn]; omega)]

/-- The row copied into a table with the same columns is the original row. -/
theorem CopiedRow.eq {f t : Table τ} (hf : WF f) {r : Nat} {row frow : List (Cell τ)} (hn : t.colNames = f.colNames)
    (ht : t.colTypes = f.colTypes) (hc : CopiedRow f r f.colNames t row) (hr : f.rows[r]? = some frow) : row = frow := by
  have h1 := hc.1.1
  have h2 := hf.rowLen hr
  have h3 := hf.typesLen
  apply List.ext_getElem?
  intro i
  by_cases hi : i < f.colNames.length
  · have e1 : t.colNames[i]? = some f.colNames[i] := by rw [hn]; exact List.getElem?_eq_getElem hi
    have e2 : row[i]? = some (row[i]'(by rw [h1, ht]; omega)) := List.getElem?_eq_getElem _
    have hlt : i < t.colTypes.length := by rw [ht]; omega
    obtain ⟨j, row', a1, a2, a3⟩ := (hc.2 i _ _ _ e1 (List.getElem?_eq_getElem hlt) e2).1 (List.getElem_mem _)
    rw [hn] at e1
    have := hf.map_unique e1 a1
    subst this
    rw [hr] at a2; cases a2
    rw [e2, a3]
  · rw [List.getElem?_eq_none (by rw [h1, ht]; omega), List.getElem?_eq_none (by omega)]

/-- Columns and name copied into a new table. -/
theorem newCols_ok (nt : Nat → Nat → τ) {t : Table τ} (h : WF t) (hnil : t.isNilTable = false) {name : GoStr}
    (hname : isValidTableName name = true) :
    ∃ t0 t1 : Table τ, newTable name = .ok t0 ∧ t0.appendColsFromTable nt t = (t1, .ok ()) ∧ WF t1 ∧ t1.name = name ∧
      t1.colNames = t.colNames ∧ t1.colTypes = t.colTypes ∧ t1.rows = [] ∧ t1.sortKeys = [] ∧ t1.isStructShape = false ∧
      t1.isNilTable = false := by
  have e0 : (newTable name : Out (Table τ)) = _ := newTable_eq hname
  generalize ht0 : ({ (newNilTable : Table τ) with name := name, isNilTable := false } : Table τ) = t0 at e0
  have p1 : t0.colNames = [] ∧ t0.rows = [] ∧ t0.sortKeys = [] ∧ t0.isStructShape = false ∧ t0.isNilTable = false ∧ t0.name = name := by
    subst ht0; simp [newNilTable]
  obtain ⟨p1, p2, p3, p4, p5, p6⟩ := p1
  obtain ⟨h1, h2, h3⟩ := (C30_appendColsFromTable nt t0 t (WF.newTable e0) h).1 ⟨p5, hnil, by
    rintro n ty ty' ⟨i, hi, _⟩ _
    simp [p1] at hi⟩
  obtain ⟨c1, c2, c3, c4, c5, c6, c7, c8, c9⟩ := h2
  have hn : (t0.appendColsFromTable nt t).1.colNames = t.colNames := by
    rw [c1, p1]
    simp
  refine ⟨t0, _, e0, Prod.ext rfl h1, h3, c6.trans p6, hn, colTypes_eq h3 h hn ?_, ?_, c7.trans p3, c8.trans p4, c9.trans p5⟩
  · intro n ty hty
    rcases (c2 n ty).1 hty with ⟨i, hi, _⟩ | ⟨_, hi⟩
    · simp [p1] at hi
    · exact hi
  · exact List.eq_nil_of_length_eq_zero (by rw [c5, p2]; rfl)

/-- The rows copied from `t` into a table with the same columns. -/
theorem copyRows_ok (nt : Nat → Nat → τ) {t t1 : Table τ} (h : WF t) (h1 : WF t1) (hnil : t.isNilTable = false)
    (hnil1 : t1.isNilTable = false) (hn : t1.colNames = t.colNames) (ht : t1.colTypes = t.colTypes) (hr : t1.rows = [])
    {a b : Int} (ha : 0 ≤ a) (hb : b < t.rows.length) :
    t1.appendRowsFromTable nt t a b = ({ t1 with rows := (t.rows.drop a.toNat).take (b - a + 1).toNat }, .ok ()) := by
  have hfit : ColsFit t t1 := by
    rintro n ty ⟨i, hi1, hi2⟩
    exact ⟨ty, ⟨i, by rw [hn]; exact hi1, by rw [ht]; exact hi2⟩, rfl⟩
  rcases appendRowsFromTable_cases nt h1 h hnil1 hnil a b with ⟨_, rows, e, hlen, hcop⟩ | ⟨hno, _⟩
  · rw [e]
    congr 2
    rw [hr, List.nil_append]
    apply List.ext_getElem?
    intro j
    by_cases hj : j < rows.length
    · have h2 : rows[j]? = some rows[j] := List.getElem?_eq_getElem hj
      have hlt : (a + j).toNat < t.rows.length := by omega
      have h3 := (hcop j _ h2).eq h hn ht (List.getElem?_eq_getElem hlt)
      rw [h2, h3, List.getElem?_take, if_pos (by omega), List.getElem?_drop]
      have : a.toNat + j = (a + j).toNat := by omega
      rw [this, List.getElem?_eq_getElem hlt]
    · rw [List.getElem?_eq_none (by omega), List.getElem?_take, if_neg (by omega)]
  · exact absurd (.inr (.inr ⟨ha, hb, hfit⟩)) hno

/-- `t'` is a new table called `name` with the columns of `t`, the rows `rows`, and no sort keys. -/
def Extract (t : Table τ) (name : GoStr) (rows : List (List (Cell τ))) (t' : Table τ) : Prop :=
  t'.name = name ∧ t'.colNames = t.colNames ∧ t'.colTypes = t.colTypes ∧ t'.rows = rows ∧ t'.sortKeys = [] ∧
  t'.isStructShape = false ∧ t'.isNilTable = false ∧ WF t'

/-- **C28.** On a table with a column, `NewTableFromRows` succeeds exactly if the new name is valid and the range is empty
(`first > last`) or lies within the table; the new table then has the same columns and exactly those rows.  It never panics. -/
theorem C28_newTableFromRows (nt : Nat → Nat → τ) (t : Table τ) (h : WF t) (hcol : t.colNames ≠ []) (name : GoStr) (a b : Int) :
    (isValidTableName name = true ∧ 0 ≤ a ∧ a ≤ b ∧ b < t.rows.length →
      ∃ t', t.newTableFromRows nt name a b = .ok t' ∧ Extract t name ((t.rows.drop a.toNat).take (b - a + 1).toNat) t') ∧
    (isValidTableName name = true ∧ b < a → ∃ t', t.newTableFromRows nt name a b = .ok t' ∧ Extract t name [] t') ∧
    (isValidTableName name = false ∨ (a ≤ b ∧ (a < 0 ∨ t.rows.length ≤ b)) → ∃ e, t.newTableFromRows nt name a b = .err e) := by
  have hnil : t.isNilTable = false := by
    cases hn : t.isNilTable
    · rfl
    · exact absurd (h.nilEmpty hn).1 hcol
  cases hname : isValidTableName name
  · refine ⟨by simp, by simp, fun _ => ⟨.badTableName, ?_⟩⟩
    simp only [newTableFromRows, newTable_err hname, Out.bind]
  · obtain ⟨t0, t1, e0, e1, hw, c1, c2, c3, c4, c5, c6, c7⟩ := newCols_ok nt h hnil hname
    have hunf : t.newTableFromRows nt name a b = match t1.appendRowsFromTable nt t a b with
        | (_, .err e) => .err e
        | (_, .panic) => .panic
        | (t2, .ok ()) => .ok t2 := by
      simp only [newTableFromRows, e0, Out.bind, e1]
      rfl
    refine ⟨?_, ?_, ?_⟩
    · rintro ⟨_, ha, hab, hb⟩
      have e2 := copyRows_ok nt h hw hnil c7 c2 c3 c4 ha hb
      have hw2 := hw.appendRowsFromTable nt h a b
      rw [e2] at hw2
      rw [hunf, e2]
      exact ⟨_, rfl, c1, c2, c3, rfl, c5, c6, c7, hw2⟩
    · rintro ⟨_, hba⟩
      have hk : (b - a + 1).toNat = 0 := by omega
      have e2 : t1.appendRowsFromTable nt t a b = (t1, .ok ()) := by
        simp only [appendRowsFromTable, c7, hnil, Bool.false_eq_true, if_false, hk]
        rfl
      rw [hunf, e2]
      exact ⟨_, rfl, c1, c2, c3, c4, c5, c6, c7, hw⟩
    · rintro (h1 | ⟨hab, hbad⟩)
      · simp at h1
      · rcases appendRowsFromTable_cases nt hw h c7 hnil a b with ⟨hyes, _⟩ | ⟨_, s, er, e⟩
        · rcases hyes with h1 | h1 | ⟨h1, h2, _⟩
          · omega
          · exact absurd h1 hcol
          · omega
        · rw [hunf, e]; exact ⟨er, rfl⟩

/-- **C28** for `NewTableFromRowsBySearchRange`: on a sorted table it returns exactly the matching rows, and an error if there are none. -/
theorem C28_bySearchRange (lower : GoStr → GoStr) (nt : Nat → Nat → τ) (t : Table τ) (h : SortedTable lower t) (vs : List (Cell τ))
    (hv : GoodSearch t vs) (name : GoStr) (hname : isValidTableName name = true) :
    (∀ a b : Nat, a ≤ b → (∀ r, MatchingRow t vs r ↔ a ≤ r ∧ r ≤ b) →
      ∃ t', t.newTableFromRowsBySearchRange lower nt name vs = .ok t' ∧ Extract t name ((t.rows.drop a).take (b - a + 1)) t') ∧
    ((∀ r, ¬ MatchingRow t vs r) → ∃ e, t.newTableFromRowsBySearchRange lower nt name vs = .err e) := by
  obtain ⟨s1, s2, s3⟩ := C20_searchRange lower t h vs hv
  constructor
  · intro a b hab hr
    have e := (s1 a b).2 ⟨a, b, rfl, rfl, hab, hr⟩
    have hb : b < t.rows.length := ((hr b).2 ⟨hab, Nat.le_refl _⟩).1
    have hcol : t.colNames ≠ [] := by
      obtain ⟨k, hk⟩ := List.exists_mem_of_ne_nil _ h.someKey
      obtain ⟨i, hi, _⟩ := h.live k hk
      intro hn; rw [hn] at hi; simp at hi
    obtain ⟨t', e', hx⟩ := (C28_newTableFromRows nt t h.wf hcol name a b).1 ⟨hname, by omega, by omega, by omega⟩
    refine ⟨t', by simp only [newTableFromRowsBySearchRange, e, Out.bind, e'], ?_⟩
    have e1 : ((b : Int) - a + 1).toNat = b - a + 1 := by omega
    simpa [e1] using hx
  · intro hno
    obtain ⟨e, he⟩ := s2.2 hno
    exact ⟨e, by simp only [newTableFromRowsBySearchRange, he, Out.bind]⟩

example : ∃ t', Ex.t.newTableFromRows (fun _ _ => ()) (gs! "Part") 1 2 = .ok t' ∧ t'.rows = (Ex.t.rows.drop 1).take 2 ∧
    t'.rows.length = 2 :=
  match C28_newTableFromRows (fun _ _ => ()) Ex.t Ex.wf (by decide +kernel) (gs! "Part") 1 2 with
  | ⟨h1, _, _⟩ =>
    match h1 ⟨by decide +kernel, by decide, by decide, by decide +kernel⟩ with
    | ⟨t', e, _, _, _, hr, _⟩ => ⟨t', e, hr, by rw [hr]; decide +kernel⟩
example : ∃ e, Ex.t.newTableFromRows (fun _ _ => ()) (gs! "Part") 1 77 = .err e := ⟨.noRow, by decide +kernel⟩

end Verif
