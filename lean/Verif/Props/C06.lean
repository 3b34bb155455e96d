import Verif.Props.C03

/-!
# C06 AppendRow(s) adds exactly the requested zero rows
-/

namespace Verif
open Table

variable {τ : Type}

/-- `t'` is `t` with `k` rows of zero values added at the end. -/
def ZeroRowsAdded (t t' : Table τ) (k : Nat) : Prop :=
  SameHeader t t' ∧ t'.rows.length = t.rows.length + k ∧
  (∀ r, r < t.rows.length → t'.rows[r]? = t.rows[r]?) ∧
  (∀ r, t.rows.length ≤ r → r < t.rows.length + k → ∀ n ty, HasColT t n ty → ∃ c, At t' n r c ∧ Cell.IsZero ty c)

theorem zeroRows_added (nt : Nat → Nat → τ) (t : Table τ) (k : Nat) :
    ZeroRowsAdded t { t with rows := t.rows ++ (List.range k).map (fun j => zeroRow nt t.colTypes (t.rows.length + j)) } k := by
  refine ⟨by simp [SameHeader], by simp, ?_, ?_⟩
  · intro r hr
    simp only
    rw [List.getElem?_append_left hr]
  · rintro r h1 h2 n ty ⟨i, hi, hty⟩
    refine ⟨zeroCell (nt i r) ty, ⟨i, zeroRow nt t.colTypes r, hi, ?_, ?_⟩, zeroCell_isZero _ _⟩
    · simp only
      rw [List.getElem?_append_right h1, List.getElem?_map, List.getElem?_range (by omega)]
      simp only [Option.map_some]
      congr 2; omega
    · simp [zeroRow, hty]

/-- **C06** for `AppendRows`: success iff the table is not a nil placeholder and the count is not negative. -/
theorem C06_appendRows (nt : Nat → Nat → τ) (t : Table τ) (h : WF t) (n : Int) :
    (t.isNilTable = false ∧ 0 ≤ n →
      (t.appendRows nt n).2 = .ok () ∧ ZeroRowsAdded t (t.appendRows nt n).1 n.toNat ∧ WF (t.appendRows nt n).1) ∧
    (¬ (t.isNilTable = false ∧ 0 ≤ n) → (∃ e, (t.appendRows nt n).2 = .err e) ∧ (t.appendRows nt n).1 = t) := by
  constructor
  · rintro ⟨hnil, hn⟩
    have e := appendRows_eq nt hnil h.typesLen hn
    refine ⟨by rw [e], ?_, h.appendRows nt n⟩
    rw [e]; exact zeroRows_added nt t n.toNat
  · intro hno
    cases hnil : t.isNilTable
    · have hn : n < 0 := by
        by_cases h0 : 0 ≤ n
        · exact absurd ⟨hnil, h0⟩ hno
        · omega
      have e : t.appendRows nt n = (t, .err .negCount) := by simp [appendRows, hnil, hn]
      rw [e]; exact ⟨⟨_, rfl⟩, rfl⟩
    · have e : t.appendRows nt n = (t, .err .nilTable) := by simp [appendRows, hnil]
      rw [e]; exact ⟨⟨_, rfl⟩, rfl⟩

/-- **C06** for `AppendRow`. -/
theorem C06_appendRow (nt : Nat → Nat → τ) (t : Table τ) (h : WF t) :
    (t.isNilTable = false → (t.appendRow nt).2 = .ok () ∧ ZeroRowsAdded t (t.appendRow nt).1 1) ∧
    (t.isNilTable = true → (∃ e, (t.appendRow nt).2 = .err e) ∧ (t.appendRow nt).1 = t) := by
  constructor
  · intro hnil
    have e := appendRow_eq nt hnil h.typesLen
    refine ⟨by rw [e], ?_⟩
    rw [e]
    have := zeroRows_added nt t 1
    simpa using this
  · intro hnil
    have e : t.appendRow nt = (t, .err .nilTable) := by simp [appendRow, hnil]
    rw [e]; exact ⟨⟨_, rfl⟩, rfl⟩

example : Ex.t.isNilTable = false ∧ (0 : Int) ≤ 2 := ⟨by rw [Ex.t_eq], by decide⟩
example : ((Ex.t.appendRows (fun _ _ => ()) 2).1).rows.length = 5 := by decide +kernel
example : (Ex.t.appendRows (fun _ _ => ()) 2).1.getVal (gs! "w") 4 = .ok (.f64 0) := by decide +kernel
example : (Ex.t.appendRows (fun _ _ => ()) (-1)).2 = .err .negCount := by decide +kernel

end Verif
