import Verif.Props.C30
import Verif.Lemmas.FromTable

/-!
# C29 AppendRowsFromTable appends the requested rows
-/

namespace Verif
open Table

variable {τ : Type}

/-- `t'` is `t` with `k` more rows: row number `j` of them holds row `a + j` of `f` by column name, and zero values in columns `f` does
not have. -/
def RowsCopied (f : Table τ) (a : Int) (k : Nat) (t t' : Table τ) : Prop :=
  SameHeader t t' ∧ t'.rows.length = t.rows.length + k ∧
  (∀ r, r < t.rows.length → t'.rows[r]? = t.rows[r]?) ∧
  (∀ j, j < k → ∀ n ty, HasColT t n ty → ∃ c, At t' n (t.rows.length + j) c ∧
    (n ∈ f.colNames → At f n (a + j).toNat c) ∧ (n ∉ f.colNames → Cell.IsZero ty c))

/-- When `AppendRowsFromTable` succeeds: there is nothing to copy, or the range lies within `f` and every column of `f` is a column of `t`
with the same Go type. -/
def CanCopyRows (f : Table τ) (a b : Int) (t : Table τ) : Prop :=
  t.isNilTable = false ∧ f.isNilTable = false ∧
  (b < a ∨ f.colNames = [] ∨ (0 ≤ a ∧ b < f.rows.length ∧ ColsFit f t))

/-- **C29** (first half, and what remains of the second).  `AppendRowsFromTable` succeeds exactly if the range lies within the source and
every source column is a column of the receiver with the same Go type (or there is no cell to copy); then exactly the requested rows are
appended.  Otherwise it returns an error, and then at least the header and the old rows are as before.  It never panics.
Missing: on failure no row should have been added (`C29_false`). -/
theorem C29_partial (nt : Nat → Nat → τ) (t f : Table τ) (h : WF t) (hf : WF f) (a b : Int) :
    (CanCopyRows f a b t →
      (t.appendRowsFromTable nt f a b).2 = .ok () ∧ RowsCopied f a (b - a + 1).toNat t (t.appendRowsFromTable nt f a b).1 ∧
      WF (t.appendRowsFromTable nt f a b).1) ∧
    (¬ CanCopyRows f a b t →
      (∃ e, (t.appendRowsFromTable nt f a b).2 = .err e) ∧ SameHeader t (t.appendRowsFromTable nt f a b).1 ∧
      (t.appendRowsFromTable nt f a b).1.rows.take t.rows.length = t.rows ∧ WF (t.appendRowsFromTable nt f a b).1) := by
  have hw := h.appendRowsFromTable nt hf a b
  obtain ⟨hg1, hg2⟩ := appendRowsFromTable_grows nt h hf a b
  cases hnil : t.isNilTable
  · cases hfnil : f.isNilTable
    · rcases appendRowsFromTable_cases nt h hf hnil hfnil a b with ⟨hyes, rows, e, hlen, hcop⟩ | ⟨hno, s, er, e⟩
      · refine ⟨fun _ => ?_, fun hno => absurd ⟨hnil, hfnil, hyes⟩ hno⟩
        rw [e] at hw ⊢
        refine ⟨rfl, ⟨SameHeader.withRows _ _, by simp [hlen], ?_, ?_⟩, hw⟩
        · intro r hr; simp [List.getElem?_append_left hr]
        · rintro j hj n ty ⟨i, hi, hty⟩
          have hrow : rows[j]? = some (rows[j]'(by omega)) := List.getElem?_eq_getElem (by omega)
          obtain ⟨h1, h2⟩ := hcop j _ hrow
          have hil : i < (rows[j]'(by omega)).length := by
            rw [h1.1]; exact (List.getElem?_eq_some_iff.1 hty).1
          have hc : (rows[j]'(by omega))[i]? = some (rows[j]'(by omega))[i] := List.getElem?_eq_getElem hil
          exact ⟨_, ⟨i, rows[j]'(by omega), hi, by
            simp only [List.getElem?_append_right (Nat.le_add_right _ _), Nat.add_sub_cancel_left, hrow], hc⟩, h2 i n ty _ hi hty hc⟩
      · refine ⟨fun hyes => absurd hyes.2.2 hno, fun _ => ⟨⟨er, by rw [e]⟩, hg1, hg2, hw⟩⟩
    · refine ⟨?_, fun _ => ⟨⟨.nilTable, ?_⟩, hg1, hg2, hw⟩⟩
      · rintro ⟨_, h2, _⟩; simp [hfnil] at h2
      · simp [appendRowsFromTable, hnil, hfnil]
  · refine ⟨?_, fun _ => ⟨⟨.nilTable, ?_⟩, hg1, hg2, hw⟩⟩
    · rintro ⟨h1, _⟩; simp [hnil] at h1
    · simp [appendRowsFromTable, hnil]

/-- Appending rows 0..3 of a two-row table with one fitting column copies the two rows, appends a third, zero row and then fails. -/
def Ex.fit : Table Unit := Op.run newNilTable
  [.setName (gs! "S"), .appendCol (fun _ _ => ()) (gs! "age") (gs! "int"), .appendRows (fun _ _ => ()) 2, .setVal (gs! "age") 1 (.int .int 65)]

theorem Ex.fit_wf : WF Ex.fit := C01_history _ (WF.newNilTable) _ (by simp [Op.ArgsOK, Cell.Real, IntKind.lo, IntKind.hi])

/-- **C29 is false of the code**: a call that fails leaves rows behind. -/
theorem C29_false : ¬ (∀ (nt : Nat → Nat → Unit) (t f : Table Unit), WF t → WF f → ∀ a b,
    (∃ e, (t.appendRowsFromTable nt f a b).2 = .err e) → (t.appendRowsFromTable nt f a b).1 = t) := by
  intro hall
  have h1 := hall (fun _ _ => ()) Ex.t Ex.fit Ex.wf Ex.fit_wf 0 3 ⟨.noRow, by decide +kernel⟩
  have h2 := congrArg (fun t : Table Unit => t.rows.length) h1
  revert h2
  decide +kernel

-- two rows are copied; the columns `name` and `w` of the new rows are zero
example : CanCopyRows Ex.fit 0 1 Ex.t := by
  refine ⟨by decide +kernel, by decide +kernel, .inr (.inr ⟨by decide +kernel, by decide +kernel, ?_⟩)⟩
  rintro n ty ⟨i, h1, h2⟩
  have e1 : Ex.fit.colNames = [gs! "age"] := by decide +kernel
  have e2 : Ex.fit.colTypes = [.int] := by decide +kernel
  rw [e1] at h1; rw [e2] at h2
  cases i with
  | zero =>
    cases h1; cases h2
    exact ⟨.int, ⟨1, by decide +kernel, by decide +kernel⟩, rfl⟩
  | succ i => simp at h1
example : (Ex.t.appendRowsFromTable (fun _ _ => ()) Ex.fit 0 1).2 = .ok () ∧
    (Ex.t.appendRowsFromTable (fun _ _ => ()) Ex.fit 0 1).1.rows.length = Ex.t.rows.length + 2 := by
  decide +kernel

end Verif
