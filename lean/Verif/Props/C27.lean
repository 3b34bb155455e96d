import Verif.Props.C28
import Verif.Props.C47

/-!
# C27 Copy yields an equal table
-/

namespace Verif
open Table

variable {τ : Type}

/-- **C27**, for the part of `Copy` after the circular reference check (which passes on a flat table, `C27_copy`): the result has the same
name, columns, types and rows, and neither the sort keys nor the struct shape; a nil placeholder cannot be copied. -/
theorem C27_copyBody (nt : Nat → Nat → τ) (t : Table τ) (h : WF t) :
    (t.isNilTable = false → ∃ t', t.copyBody nt = .ok t' ∧ Extract t t.name t.rows t') ∧
    (t.isNilTable = true → ∃ e, t.copyBody nt = .err e) := by
  have hrc : t.rowCount = t.rows.length := rfl
  constructor
  · intro hnil
    obtain ⟨t0, t1, e0, e1, hw, c1, c2, c3, c4, c5, c6, c7⟩ := newCols_ok nt h hnil (h.nameValid hnil)
    have ec : t.copyColsBody nt = .ok t1 := by
      simp only [copyColsBody, e0, Out.bind, e1]
    simp only [copyBody, ec, Out.bind]
    by_cases hr : t.rowCount > 0
    · rw [if_pos hr]
      have e2 := copyRows_ok nt h hw hnil c7 c2 c3 c4 (a := 0) (b := (t.rowCount : Int) - 1) (by omega) (by omega)
      have hw2 := hw.appendRowsFromTable nt h 0 ((t.rowCount : Int) - 1)
      rw [e2] at hw2 ⊢
      have e3 : (t.rows.drop (0 : Int).toNat).take ((t.rowCount : Int) - 1 - 0 + 1).toNat = t.rows := by
        have : ((t.rowCount : Int) - 1 - 0 + 1).toNat = t.rows.length := by omega
        rw [this]; simp
      rw [e3] at hw2 ⊢
      exact ⟨_, rfl, c1, c2, c3, rfl, c5, c6, c7, hw2⟩
    · rw [if_neg hr]
      have : t.rows = [] := List.eq_nil_of_length_eq_zero (by omega)
      exact ⟨t1, rfl, c1, c2, c3, by rw [c4, this], c5, c6, c7, hw⟩
  · intro hnil
    simp only [copyBody, copyColsBody]
    cases hn : (newTable t.name : Out (Table τ)) with
    | err e => exact ⟨e, rfl⟩
    | panic =>
      cases hv : isValidTableName t.name
      · rw [newTable_err hv] at hn; cases hn
      · rw [newTable_eq hv] at hn; cases hn
    | ok t0 =>
      have hb : (t0.appendColsFromTable nt t).2 = .err .nilTable := by
        have : t0.isNilTable = false := by
          cases hv : isValidTableName t.name
          · rw [newTable_err hv] at hn; cases hn
          · rw [newTable_eq hv] at hn; cases hn; rfl
        simp [appendColsFromTable, this, colInfo, hnil]
      simp only [Out.bind]
      generalize t0.appendColsFromTable nt t = r at hb
      rcases r with ⟨t1, o⟩
      cases hb
      exact ⟨_, rfl⟩

example : ∃ t', Ex.t.copyBody (fun _ _ => ()) = .ok t' ∧ t'.rows = Ex.t.rows ∧ t'.rows.length = 3 :=
  match (C27_copyBody (fun _ _ => ()) Ex.t Ex.wf).1 (by decide +kernel) with
  | ⟨t', e, _, _, _, hr, _⟩ => ⟨t', e, hr, by rw [hr]; decide +kernel⟩

/-- **C27** for tables in memory: `Copy` of a well-formed named flat table succeeds; the copy is a new table (no table in memory changes)
with the same name, columns, types and rows, without sort keys and struct shape.  Later edits of one of the two tables are edits of one
place in memory and leave the other alone. -/
theorem C27_copy (H : Heap) (hw : HeapWF H) (hcl : Closed H) (d : Nat) (hd : H.length + 2 ≤ d) (a : Addr) (t : Table Addr)
    (ht : H[a]? = some t) (hnil : t.isNilTable = false) (hflat : Flat t) :
    ∃ t', copyAt H d a = (H ++ [t'], .ok H.length) ∧ Extract t t.name t.rows t' := by
  have hwf := hw t (List.mem_of_getElem? ht)
  have ha := (List.getElem?_eq_some_iff.1 ht).1
  have hno : ∀ c r b, ¬ HoldsAt H a c r b := by
    rintro c r b ⟨t', h1, h2⟩
    rw [ht] at h1; cases h1
    obtain ⟨n, h3, _, h4, _⟩ := nestedAt_At hwf h2
    exact hflat n ⟨c, h3, h4⟩
  have hv : isValidTableNesting H d a = .ok () := (C47_exact H hw hcl d hd a ha).1.2
    ⟨fun c r b hb => absurd hb (hno c r b), fun c r c' r' b hb => absurd hb (hno c r b)⟩
  obtain ⟨t', e, hx⟩ := (C27_copyBody (fun _ _ => 0) t hwf).1 hnil
  exact ⟨t', by simp only [copyAt, ht, hv, e], hx⟩

/-- What `Copy` does in general: it succeeds exactly on named tables that `HasCircularReference` accepts; a nested table is shared with
the original, not copied. -/
theorem C27_copy_iff (H : Heap) (hw : HeapWF H) (hcl : Closed H) (d : Nat) (hd : H.length + 2 ≤ d) (a : Addr) (t : Table Addr)
    (ht : H[a]? = some t) :
    (t.isNilTable = false ∧ isValidTableNesting H d a = .ok () →
      ∃ t', copyAt H d a = (H ++ [t'], .ok H.length) ∧ Extract t t.name t.rows t') ∧
    (¬ (t.isNilTable = false ∧ isValidTableNesting H d a = .ok ()) → ∃ e, copyAt H d a = (H, .err e)) := by
  have hwf := hw t (List.mem_of_getElem? ht)
  have ha := (List.getElem?_eq_some_iff.1 ht).1
  have hnp := (C47_exact H hw hcl d hd a ha).2
  obtain ⟨h1, h2⟩ := C27_copyBody (fun _ _ => 0) t hwf
  constructor
  · rintro ⟨hnil, hv⟩
    obtain ⟨t', e, hx⟩ := h1 hnil
    exact ⟨t', by simp only [copyAt, ht, hv, e], hx⟩
  · intro hn
    cases hv : isValidTableNesting H d a with
    | err e => exact ⟨e, by simp only [copyAt, ht, hv]⟩
    | panic => exact absurd hv hnp
    | ok _ =>
      have hnil : t.isNilTable = true := by
        cases h : t.isNilTable with
        | true => rfl
        | false => exact absurd ⟨h, hv⟩ hn
      obtain ⟨e, he⟩ := h2 hnil
      exact ⟨e, by simp only [copyAt, ht, hv, he]⟩

-- a table with two flat tables is copied; one with two levels is refused
example := (C27_copy_iff Ex.tree Ex.tree_wf Ex.tree_acyclic.closed 5 (by decide) 2 _ rfl).1 ⟨by decide +kernel, by decide +kernel⟩
example := (C27_copy_iff Ex.chain Ex.chain_wf Ex.chain_acyclic.closed 5 (by decide) 2 _ rfl).2 (by decide +kernel)

end Verif
