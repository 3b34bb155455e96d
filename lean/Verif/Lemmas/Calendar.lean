import Verif.Lemmas.Time

/-!
# Lemmas: the calendar
-/

namespace Verif

/-- Days before the year. -/
def yearStart (y : Int) : Int := 365 * (y - 1) + (y - 1) / 4 - (y - 1) / 100 + (y - 1) / 400

theorem isLeap_iff {y : Int} : isLeap y = true ↔ y % 4 = 0 ∧ (y % 100 ≠ 0 ∨ y % 400 = 0) := by
  simp [isLeap]

theorem yearStart_succ (y : Int) : yearStart (y + 1) = yearStart y + if isLeap y then 366 else 365 := by
  unfold yearStart
  split
  · rename_i h; rw [isLeap_iff] at h; omega
  · rename_i h; rw [isLeap_iff] at h; omega

theorem yearStart_mono {y y' : Int} (h : y ≤ y') : yearStart y ≤ yearStart y' := by
  unfold yearStart; omega

theorem months_mono : ∀ b, ∀ m < 13, ∀ m' < 13, 1 ≤ m → m < m' →
    ((monthLengths b).take (m - 1)).sum + (monthLengths b).getD (m - 1) 0 ≤ ((monthLengths b).take (m' - 1)).sum := by decide

theorem months_end : ∀ b, ∀ m < 13, 1 ≤ m →
    ((monthLengths b).take (m - 1)).sum + (monthLengths b).getD (m - 1) 0 ≤ if b then 366 else 365 := by decide

/-- The months from 1 to 12, the days from 1 to the end of the month. -/
def ValidDate (c : Int × Nat × Nat) : Prop := 1 ≤ c.2.1 ∧ c.2.1 ≤ 12 ∧ 1 ≤ c.2.2 ∧ c.2.2 ≤ daysIn c.2.1 c.1

theorem daysTo_eq (y : Int) (m d : Nat) : daysTo y m d = yearStart y + (((monthLengths (isLeap y)).take (m - 1)).sum : Nat) + (d : Int) - 1 := rfl

theorem daysTo_bounds {c : Int × Nat × Nat} (h : ValidDate c) : yearStart c.1 ≤ daysTo c.1 c.2.1 c.2.2 ∧ daysTo c.1 c.2.1 c.2.2 < yearStart (c.1 + 1) := by
  obtain ⟨h1, h2, h3, h4⟩ := h
  have := months_end (isLeap c.1) c.2.1 (by omega) h1
  rw [daysTo_eq, yearStart_succ]
  unfold daysIn at h4
  split
  · rename_i e; rw [e] at this h4 ⊢; simp only [if_true] at this; omega
  · rename_i e
    simp only [Bool.not_eq_true] at e
    rw [e] at this h4 ⊢; simp only [Bool.false_eq_true, if_false] at this; omega

theorem daysTo_inj {c c' : Int × Nat × Nat} (h : ValidDate c) (h' : ValidDate c') (e : daysTo c.1 c.2.1 c.2.2 = daysTo c'.1 c'.2.1 c'.2.2) : c = c' := by
  have b := daysTo_bounds h
  have b' := daysTo_bounds h'
  obtain ⟨y, m, d⟩ := c
  obtain ⟨y', m', d'⟩ := c'
  simp only at *
  have hy : y = y' := by
    by_cases h1 : y < y'
    · have := yearStart_mono (show y + 1 ≤ y' by omega); omega
    · by_cases h2 : y' < y
      · have := yearStart_mono (show y' + 1 ≤ y by omega); omega
      · omega
  subst hy
  obtain ⟨h1, h2, h3, h4⟩ := h
  obtain ⟨g1, g2, g3, g4⟩ := h'
  simp only [daysTo_eq, daysIn] at *
  by_cases l1 : m < m'
  · have := months_mono (isLeap y) m (by omega) m' (by omega) h1 l1; omega
  · by_cases l2 : m' < m
    · have := months_mono (isLeap y) m' (by omega) m (by omega) g1 l2; omega
    · have : m = m' := by omega
      subst this
      have : d = d' := by omega
      subst this
      rfl

theorem civil_valid (n : Int) : ValidDate (civil n) := (civil_facts n).2

theorem civil_daysTo {c : Int × Nat × Nat} (h : ValidDate c) : civil (daysTo c.1 c.2.1 c.2.2) = c :=
  daysTo_inj (civil_valid _) h (civil_facts _).1

end Verif
