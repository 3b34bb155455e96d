import Verif.Props.C03

/-!
# C14 Shuffling only permutes rows
-/

namespace Verif
open Table

variable {τ : Type}

/-- **C14.** Whatever numbers the random source returns, the result has the same rows in some order; nothing else changes. -/
theorem C14_shuffle (choose : Nat → Nat) (t : Table τ) :
    (t.shuffle choose).2 = .ok () ∧ (t.shuffle choose).1.rows.Perm t.rows ∧ SameHeader t (t.shuffle choose).1 := by
  obtain ⟨rows, hp, e⟩ := shuffle_eq choose t
  rw [e]
  exact ⟨rfl, hp, by simp [SameHeader]⟩

-- a shuffle that really moves rows
example : (Ex.t.shuffle (fun i => i + 7)).1.getVal (gs! "name") 0 = .ok (.str (gs! "Al")) := by decide +kernel

end Verif
