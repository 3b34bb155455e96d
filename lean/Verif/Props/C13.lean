import Verif.Props.C03

/-!
# C13 Reverse reverses, and twice is identity
-/

namespace Verif
open Table

variable {τ : Type}

/-- **C13.** Row `i` becomes row `RowCount - 1 - i`; nothing else changes; it always succeeds. -/
theorem C13_reverse (t : Table τ) :
    t.reverse.2 = .ok () ∧ SameHeader t t.reverse.1 ∧ t.reverse.1.rows.length = t.rows.length ∧
    ∀ i, i < t.rows.length → t.reverse.1.rows[t.rows.length - 1 - i]? = t.rows[i]? := by
  rw [reverse_eq]
  refine ⟨rfl, by simp [SameHeader], by simp, ?_⟩
  intro i hi
  simp only
  rw [List.getElem?_reverse (by omega)]
  congr 1; omega

/-- **C13.** Reversing twice restores the table exactly. -/
theorem C13_twice (t : Table τ) : t.reverse.1.reverse = (t, .ok ()) := by
  rw [reverse_eq t, reverse_eq]; simp

example : Ex.t.reverse.1.getVal (gs! "name") 0 = .ok (.str (gs! "cy")) := by decide +kernel
example : (Ex.t.appendRow (fun _ _ => ())).1.reverse.1.getVal (gs! "name") 3 = .ok (.str (gs! "bob")) := by decide +kernel

end Verif
