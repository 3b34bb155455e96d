import Verif.Props.C03

/-!
# C08 DeleteRows removes exactly the closed interval
-/

namespace Verif
open Table

variable {τ : Type}

/-- `t'` is `t` without rows `a..b`: rows below `a` stay, rows above `b` move up by `b - a + 1`, nothing else changes. -/
def RowsRemoved (t t' : Table τ) (a b : Nat) : Prop :=
  SameHeader t t' ∧ t'.rows.length + (b - a + 1) = t.rows.length ∧
  (∀ r, r < a → t'.rows[r]? = t.rows[r]?) ∧ (∀ r, a ≤ r → t'.rows[r]? = t.rows[r + (b - a + 1)]?)

theorem rows_removed (t : Table τ) {a b : Nat} (hab : a ≤ b) (hb : b < t.rows.length) :
    RowsRemoved t { t with rows := t.rows.take a ++ t.rows.drop (b + 1) } a b := by
  refine ⟨by simp [SameHeader], by simp; omega, ?_, ?_⟩
  · intro r hr
    simp only
    rw [List.getElem?_append_left (by simp; omega), List.getElem?_take_of_lt hr]
  · intro r hr
    simp only
    rw [List.getElem?_append_right (by simp; omega), List.getElem?_drop]
    congr 1
    simp; omega

/-- **C08** for `DeleteRows`. -/
theorem C08_deleteRows (t : Table τ) (a b : Int) :
    (0 ≤ a ∧ a ≤ b ∧ b < t.rows.length →
      (t.deleteRows a b).2 = .ok () ∧ RowsRemoved t (t.deleteRows a b).1 a.toNat b.toNat) ∧
    (¬ (0 ≤ a ∧ a ≤ b ∧ b < t.rows.length) → (∃ e, (t.deleteRows a b).2 = .err e) ∧ (t.deleteRows a b).1 = t) := by
  constructor
  · rintro ⟨h0, h1, h2⟩
    have e : t.deleteRows a b = ({ t with rows := t.rows.take a.toNat ++ t.rows.drop (b + 1).toNat }, .ok ()) := by
      simp only [deleteRows]
      rw [if_neg (show ¬ (a < 0 ∨ a > (t.rowCount : Int) - 1) by simp only [rowCount]; omega),
        if_neg (show ¬ (b < 0 ∨ b > (t.rowCount : Int) - 1) by simp only [rowCount]; omega), if_neg (show ¬ a > b by omega)]
    rw [e]
    refine ⟨rfl, ?_⟩
    rw [show (b + 1).toNat = b.toNat + 1 by omega]
    exact rows_removed t (by omega) (by omega)
  · intro hno
    have e : ∃ e, t.deleteRows a b = (t, .err e) := by
      simp only [deleteRows]
      split
      · exact ⟨_, rfl⟩
      · split
        · exact ⟨_, rfl⟩
        · split
          · exact ⟨_, rfl⟩
          · exfalso; simp only [rowCount] at *; omega
    obtain ⟨e, he⟩ := e
    rw [he]; exact ⟨⟨_, rfl⟩, rfl⟩

/-- **C08** for `DeleteRow`. -/
theorem C08_deleteRow (t : Table τ) (a : Int) :
    (0 ≤ a ∧ a < t.rows.length → (t.deleteRow a).2 = .ok () ∧ RowsRemoved t (t.deleteRow a).1 a.toNat a.toNat) ∧
    (¬ (0 ≤ a ∧ a < t.rows.length) → (∃ e, (t.deleteRow a).2 = .err e) ∧ (t.deleteRow a).1 = t) := by
  have key := C08_deleteRows t a a
  constructor
  · rintro ⟨h0, h1⟩
    have h2 := key.1 ⟨h0, by omega, h1⟩
    have e : t.deleteRow a = match t.deleteRows a a with
      | (t', .err _) => (t', .ok ())
      | r => r := if_neg (by simp only [rowCount]; omega)
    rw [e]
    revert h2
    rcases t.deleteRows a a with ⟨t', o⟩
    cases o <;> simp
  · intro hno
    have e : t.deleteRow a = (t, .err .noRow) := if_pos (by simp only [rowCount]; omega)
    rw [e]; exact ⟨⟨_, rfl⟩, rfl⟩

/-- **C08** for `DeleteRowsAll`. -/
theorem C08_deleteRowsAll (t : Table τ) :
    t.deleteRowsAll.2 = .ok () ∧ t.deleteRowsAll.1.rows = [] ∧ SameHeader t t.deleteRowsAll.1 := by
  by_cases hr : 0 < t.rows.length
  · have e : t.deleteRowsAll = t.deleteRows 0 ((t.rows.length : Int) - 1) := if_pos (by simp only [rowCount]; omega)
    obtain ⟨h1, h2, h3, _⟩ := (C08_deleteRows t 0 ((t.rows.length : Int) - 1)).1 (by omega)
    rw [e]
    refine ⟨h1, List.eq_nil_of_length_eq_zero (by omega), h2⟩
  · have e : t.deleteRowsAll = (t, .ok ()) := if_neg (by simp only [rowCount]; omega)
    rw [e]
    exact ⟨rfl, List.eq_nil_of_length_eq_zero (by simp only; omega), by simp [SameHeader]⟩

example : (0 : Int) ≤ 0 ∧ (0 : Int) ≤ 1 ∧ (1 : Int) < Ex.t.rows.length := by rw [Ex.t_eq]; decide
example : (Ex.t.deleteRows 0 1).1.getVal (gs! "name") 0 = .ok (.str (gs! "cy")) := by decide +kernel
example : (Ex.t.deleteRows 1 0).2 = .err .badRange := by decide +kernel

end Verif
